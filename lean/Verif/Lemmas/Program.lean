import Verif.Spec.Program
import Verif.Lemmas.Conc

/-! Linearizability is local (Herlihy & Wing): if the events on each object are linearizable, so are all events. -/

namespace GoMetrics
open Spec

variable {Op R ι : Type} [DecidableEq ι] {σ Op' R' : ι → Type}

def TS.op? : TS Op R → Option Op
  | .idle => none
  | .pend o => some o
  | .done o _ => some o

/-- The state of a goroutine, and its states as the objects see them. -/
inductive Link (key : Op → ι) (ρ : ∀ k, Op → Op' k → Prop) (g : ∀ k, Op → R' k → R) : TS Op R → (∀ k, TS (Op' k) (R' k)) → Prop
  | idle {v} : (∀ k, v k = .idle) → Link key ρ g .idle v
  | pend {o o' v} : ρ (key o) o o' → v (key o) = .pend o' → (∀ j, j ≠ key o → v j = .idle) → Link key ρ g (.pend o) v
  | done {o o' r' v} : ρ (key o) o o' → v (key o) = .done o' r' → (∀ j, j ≠ key o → v j = .idle) → Link key ρ g (.done o (g (key o) o r')) v

/-- The program has executed up to some moment; what is left to do as the objects see it. -/
structure Merge (key : Op → ι) (ρ : ∀ k, Op → Op' k → Prop) (g : ∀ k, Op → R' k → R) (S : ∀ k, σ k → Op' k → R' k → σ k → Prop)
    (h : List (HEv Op R)) (G : Nat → TS Op R) (st : ∀ k, Nat → TS (Op' k) (R' k)) (tr : ∀ k, List (CEv (Op' k) (R' k))) (s : ∀ k, σ k) : Prop where
  rel : ∀ k, List.Forall₂ (SameEv (ρ k) (g k)) (part key k h) (hist (tr k))
  wf : ∀ k, ∃ st', Wf (st k) (tr k) st'
  legal : ∀ k, ∃ s', LegalRun (S k) (s k) (linSeq (tr k)) s'
  link : ∀ t, Link key ρ g (G t) fun k => st k t
  one : OneCall (fun t => (G t).op?) h

/-- The trace of the whole. -/
def Merged (key : Op → ι) (ρ : ∀ k, Op → Op' k → Prop) (g : ∀ k, Op → R' k → R) (S : ∀ k, σ k → Op' k → R' k → σ k → Prop)
    (h : List (HEv Op R)) (G : Nat → TS Op R) (s : ∀ k, σ k) : Prop :=
  ∃ tr G' s', hist tr = h ∧ Wf G tr G' ∧ LegalRun (Together key ρ g S) s (linSeq tr) s'

variable {key : Op → ι} {ρ : ∀ k, Op → Op' k → Prop} {g : ∀ k, Op → R' k → R} {S : ∀ k, σ k → Op' k → R' k → σ k → Prop}

theorem update_op (G : Nat → TS Op R) (t : Nat) (x : TS Op R) :
    (fun u => (Function.update G t x u).op?) = Function.update (fun u => (G u).op?) t x.op? := by
  funext u
  by_cases hu : u = t
  · subst hu; simp
  · simp [hu]

theorem update_self_op (G : Nat → TS Op R) (t : Nat) (x : TS Op R) (hx : x.op? = (G t).op?) :
    (fun u => (Function.update G t x u).op?) = fun u => (G u).op? := by
  rw [update_op, hx, Function.update_eq_self_iff]

/-- Changing what goroutine `t` is doing at the object `k`. -/
theorem link_update {G : Nat → TS Op R} {st : ∀ k, Nat → TS (Op' k) (R' k)} (hl : ∀ t, Link key ρ g (G t) fun k => st k t) {t : Nat} {k : ι} {x : TS Op R}
    {y : TS (Op' k) (R' k)} (hx : Link key ρ g x (Function.update (fun k => st k t) k y)) :
    ∀ u, Link key ρ g (Function.update G t x u) fun j => Function.update st k (Function.update (st k) t y) j u := by
  intro u
  by_cases hu : u = t
  · subst hu
    rw [Function.update_self]
    have : (fun j => Function.update st k (Function.update (st k) u y) j u) = Function.update (fun k => st k u) k y := by
      funext j
      by_cases hj : j = k
      · subst hj; simp
      · simp [hj]
    rw [this]
    exact hx
  · rw [Function.update_of_ne hu]
    have : (fun j => Function.update st k (Function.update (st k) t y) j u) = fun k => st k u := by
      funext j
      by_cases hj : j = k
      · subst hj; simp [hu]
      · simp [hj]
    rw [this]
    exact hl u

theorem forall_update {β : ι → Type} {P : ∀ k, β k → Prop} {f : ∀ k, β k} {k : ι} {x : β k} (hf : ∀ j, P j (f j)) (hx : P k x) : ∀ j, P j (Function.update f k x j) := by
  intro j
  by_cases hj : j = k
  · subst hj; simpa using hx
  · simpa [hj] using hf j

omit [DecidableEq ι] in
theorem Link.of_pend {x : TS Op R} {v : ∀ k, TS (Op' k) (R' k)} {k : ι} {o' : Op' k} (h : Link key ρ g x v) (hv : v k = .pend o') :
    ∃ o, x = .pend o ∧ key o = k ∧ ρ k o o' ∧ ∀ j, j ≠ k → v j = .idle := by
  cases h with
  | idle h => rw [h k] at hv; cases hv
  | @pend o o1 _ hρ h1 h2 =>
    by_cases hk : k = key o
    · subst hk
      rw [h1] at hv
      cases hv
      exact ⟨o, rfl, rfl, hρ, h2⟩
    · rw [h2 k hk] at hv; cases hv
  | @done o o1 r1 _ hρ h1 h2 =>
    by_cases hk : k = key o
    · subst hk
      rw [h1] at hv
      cases hv
    · rw [h2 k hk] at hv; cases hv

/-- The next event that object `k` sees is the effect of a call: it can be done now. -/
theorem Merge.lin {h : List (HEv Op R)} {G : Nat → TS Op R} {st : ∀ k, Nat → TS (Op' k) (R' k)} {tr : ∀ k, List (CEv (Op' k) (R' k))} {s : ∀ k, σ k} {k : ι}
    {t : Nat} {o' : Op' k} {r' : R' k} {post : List (CEv (Op' k) (R' k))} (hm : Merge key ρ g S h G st tr s) (htr : tr k = .lin t o' r' :: post) :
    ∃ G' st' s', Merge key ρ g S h G' st' (Function.update tr k post) s' ∧ (Merged key ρ g S h G' s' → Merged key ρ g S h G s) := by
  obtain ⟨stk, hwf⟩ := hm.wf k
  obtain ⟨sk, hleg⟩ := hm.legal k
  rw [htr] at hwf hleg
  cases hwf with
  | cons hstep hwf =>
    cases hstep with
    | lin hpend =>
      cases hleg with
      | cons hS hleg =>
        rename_i x
        obtain ⟨o, hG, rfl, hρ, hid⟩ := (hm.link t).of_pend hpend
        refine ⟨Function.update G t (.done o (g (key o) o r')), Function.update st (key o) (Function.update (st (key o)) t (.done o' r')),
          Function.update s (key o) x, ⟨?_, ?_, ?_, link_update hm.link ?_, ?_⟩, ?_⟩
        · intro j
          have hj := hm.rel j
          by_cases hjk : j = key o
          · subst hjk
            rw [htr] at hj
            simpa [hist] using hj
          · simpa [hjk] using hj
        · intro j
          have hj := hm.wf j
          by_cases hjk : j = key o
          · subst hjk
            simpa using ⟨_, hwf⟩
          · simpa [hjk] using hj
        · intro j
          have hj := hm.legal j
          by_cases hjk : j = key o
          · subst hjk
            simpa using ⟨_, hleg⟩
          · simpa [hjk] using hj
        · exact .done hρ (by simp) fun j hj => by simpa [hj] using hid j hj
        · rw [update_self_op]
          · exact hm.one
          · rw [hG]; rfl
        · rintro ⟨tr', G', s', h1, h2, h3⟩
          exact ⟨.lin t o (g (key o) o r') :: tr', G', s', by simpa [hist] using h1, .cons (.lin hG) h2, .cons ⟨o', r', x, hρ, rfl, hS, rfl⟩ h3⟩

theorem hist_cons_split {Op R : Type} {tr : List (CEv Op R)} {e : HEv Op R} {l : List (HEv Op R)} (h : hist tr = e :: l) :
    (∃ t o r post, tr = .lin t o r :: post ∧ hist post = e :: l) ∨
    (∃ post, hist post = l ∧ ((∃ t o, e = .inv t o ∧ tr = .inv t o :: post) ∨ ∃ t o r, e = .ret t o r ∧ tr = .ret t o r :: post)) := by
  cases tr with
  | nil => cases h
  | cons a tr =>
    cases a with
    | inv t o =>
      simp only [hist, List.filterMap_cons, List.cons.injEq] at h
      exact .inr ⟨tr, h.2, .inl ⟨t, o, h.1.symm, rfl⟩⟩
    | lin t o r => exact .inl ⟨t, o, r, tr, rfl, h⟩
    | ret t o r =>
      simp only [hist, List.filterMap_cons, List.cons.injEq] at h
      exact .inr ⟨tr, h.2, .inr ⟨t, o, r, h.1.symm, rfl⟩⟩

theorem part_cons (key : Op → ι) (k : ι) (e : HEv Op R) (h : List (HEv Op R)) : part key k (e :: h) = if key (evOp e) = k then e :: part key k h else part key k h := by
  unfold part
  rw [List.filter_cons]
  by_cases hk : key (evOp e) = k <;> simp [hk]

theorem merged (h : List (HEv Op R)) : ∀ (G : Nat → TS Op R) (st : ∀ k, Nat → TS (Op' k) (R' k)) (tr : ∀ k, List (CEv (Op' k) (R' k))) (s : ∀ k, σ k),
    Merge key ρ g S h G st tr s → Merged key ρ g S h G s := by
  induction h with
  | nil => intro G st tr s _; exact ⟨[], G, s, rfl, .nil, .nil⟩
  | cons e h ih =>
    -- first the effects that object `key e` sees before the event
    have key' : ∀ (n : Nat) (G : Nat → TS Op R) (st : ∀ k, Nat → TS (Op' k) (R' k)) (tr : ∀ k, List (CEv (Op' k) (R' k))) (s : ∀ k, σ k),
        (tr (key (evOp e))).length = n → Merge key ρ g S (e :: h) G st tr s → Merged key ρ g S (e :: h) G s := by
      intro n
      induction n with
      | zero =>
        intro G st tr s hn hm
        have := hm.rel (key (evOp e))
        rw [part_cons, if_pos rfl, List.length_eq_zero_iff.1 hn] at this
        cases this
      | succ n ihn =>
        intro G st tr s hn hm
        have hrel := hm.rel (key (evOp e))
        rw [part_cons, if_pos rfl] at hrel
        generalize hk : key (evOp e) = k at *
        generalize hht : hist (tr k) = ht at *
        cases hrel with
        | @cons _ e' _ l' hsame hrest =>
          rcases hist_cons_split hht with ⟨t, o', r', post, htr, -⟩ | ⟨post, hpost, hev⟩
          · obtain ⟨G', st', s', hm', himp⟩ := hm.lin htr
            refine himp (ihn G' st' _ s' ?_ hm')
            rw [htr] at hn
            simpa using hn
          · obtain ⟨stk, hwf⟩ := hm.wf k
            obtain ⟨sk, hleg⟩ := hm.legal k
            have hrel' : ∀ j, List.Forall₂ (SameEv (ρ j) (g j)) (part key j h) (hist (Function.update tr k post j)) := by
              intro j
              by_cases hj : j = k
              · subst hj
                rw [Function.update_self, hpost]
                exact hrest
              · have := hm.rel j
                rw [part_cons, if_neg (by rw [hk]; exact Ne.symm hj)] at this
                rw [Function.update_of_ne hj]
                exact this
            have hone := hm.one
            rcases hev with ⟨t, o', he', htr⟩ | ⟨t, o', r', he', htr⟩
            · rw [htr] at hwf hleg
              subst he'
              cases hsame with
              | @inv _ o _ hρ =>
                change key o = k at hk
                subst hk
                obtain ⟨hbusy, hone⟩ := hone
                cases hwf with
                | cons hstep hwf =>
                  cases hstep with
                  | inv hidle =>
                    have hG : G t = .idle := by
                      change (G t).op? = none at hbusy
                      revert hbusy
                      cases G t <;> simp [TS.op?]
                    have hl := hm.link t
                    rw [hG] at hl
                    cases hl with
                    | idle hall =>
                      have := ih (Function.update G t (.pend o)) (Function.update st (key o) (Function.update (st (key o)) t (.pend o')))
                        (Function.update tr (key o) post) s
                        ⟨hrel', fun j => by
                            have := hm.wf j
                            by_cases hj : j = key o
                            · subst hj; simpa using ⟨_, hwf⟩
                            · simpa [hj] using this,
                          fun j => by
                            have := hm.legal j
                            by_cases hj : j = key o
                            · subst hj; simpa using ⟨_, hleg⟩
                            · simpa [hj] using this,
                          link_update hm.link (.pend hρ (by simp) fun j hj => by simpa [hj] using hall j),
                          by rw [update_op]; exact hone⟩
                      obtain ⟨tr', G', s', h1, h2, h3⟩ := this
                      exact ⟨.inv t o :: tr', G', s', by simpa [hist] using h1, .cons (.inv hG) h2, h3⟩
            · rw [htr] at hwf hleg
              subst he'
              cases hsame with
              | @ret _ o _ _ hρ =>
                change key o = k at hk
                subst hk
                obtain ⟨hbusy, hone⟩ := hone
                cases hwf with
                | cons hstep hwf =>
                  cases hstep with
                  | ret hdone =>
                    have hl := hm.link t
                    have hG : G t = .done o (g (key o) o r') ∧ ∀ j, j ≠ key o → st j t = .idle := by
                      change (G t).op? = some o at hbusy
                      generalize G t = x at hl hbusy
                      cases hl with
                      | idle _ => cases hbusy
                      | @pend o1 o1' _ _ h1 _ =>
                        simp only [TS.op?, Option.some.injEq] at hbusy
                        subst hbusy
                        replace h1 := hdone.symm.trans h1
                        cases h1
                      | @done o1 o1' r1' _ _ h1 h2 =>
                        simp only [TS.op?, Option.some.injEq] at hbusy
                        subst hbusy
                        replace h1 := hdone.symm.trans h1
                        cases h1
                        exact ⟨rfl, h2⟩
                    have := ih (Function.update G t .idle) (Function.update st (key o) (Function.update (st (key o)) t .idle))
                      (Function.update tr (key o) post) s
                      ⟨hrel', fun j => by
                          have := hm.wf j
                          by_cases hj : j = key o
                          · subst hj; simpa using ⟨_, hwf⟩
                          · simpa [hj] using this,
                        fun j => by
                          have := hm.legal j
                          by_cases hj : j = key o
                          · subst hj; simpa using ⟨_, hleg⟩
                          · simpa [hj] using this,
                        link_update hm.link (.idle fun j => by
                          by_cases hj : j = key o
                          · subst hj; simp
                          · simpa [hj] using hG.2 j hj),
                        by rw [update_op]; exact hone⟩
                    obtain ⟨tr', G', s', h1, h2, h3⟩ := this
                    exact ⟨.ret t o (g (key o) o r') :: tr', G', s', by simpa [hist] using h1, .cons (.ret hG.1) h2, h3⟩
    intro G st tr s hm
    exact key' _ G st tr s rfl hm

/-- Locality. -/
theorem linearizable_together {s0 : ∀ k, σ k} {h : List (HEv Op R)} (hone : OneCall (fun _ => none) h)
    (hk : ∀ k, ∃ hk, List.Forall₂ (SameEv (ρ k) (g k)) (part key k h) hk ∧ Linearizable (S k) (s0 k) hk) : Linearizable (Together key ρ g S) s0 h := by
  choose hs hrel tr st s' hh hwf hleg using hk
  exact merged h allIdle (fun k => allIdle) tr s0 ⟨fun k => by rw [hh]; exact hrel k, fun k => ⟨_, hwf k⟩, fun k => ⟨_, hleg k⟩, fun t => .idle fun _ => rfl, hone⟩

end GoMetrics
