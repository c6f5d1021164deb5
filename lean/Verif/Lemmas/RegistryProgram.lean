import Verif.Spec.RegistryProgram
import Verif.Lemmas.WorldProgram
import Verif.Lemmas.WorldEffect
import Verif.Props.Registry
import Verif.Props.RegistryConc

/-! The calls of a concurrent program with registries, in the order of their effects, are a history of the one-at-a-time model. -/

namespace GoMetrics
open Spec

theorem oneCall_same {Op R Op' R' : Type} {ρ : Op → Op' → Prop} {g : Op → R' → R} (hρ : ∀ o a b, ρ o a → ρ o b → a = b) {h : List (HEv Op R)} {h' : List (HEv Op' R')}
    (hs : List.Forall₂ (SameEv ρ g) h h') : ∀ (b : Nat → Option Op) (b' : Nat → Option Op'), (∀ t, Option.Rel ρ (b t) (b' t)) → OneCall b h → OneCall b' h' := by
  induction hs with
  | nil => intro _ _ _ _; exact trivial
  | cons he _ ih =>
    intro b b' hb hone
    have upd : ∀ t x x', Option.Rel ρ x x' → ∀ u, Option.Rel ρ (Function.update b t x u) (Function.update b' t x' u) := by
      intro t x x' hx u
      by_cases hu : u = t
      · subst hu; simpa using hx
      · simpa [hu] using hb u
    cases he with
    | @inv t o o' ho =>
      obtain ⟨h1, h2⟩ := hone
      have := hb t
      rw [h1] at this
      refine ⟨?_, ih _ _ (upd t _ _ (.some ho)) h2⟩
      cases hx : b' t with
      | none => rfl
      | some y => rw [hx] at this; cases this
    | @ret t o o' r' ho =>
      obtain ⟨h1, h2⟩ := hone
      have := hb t
      rw [h1] at this
      refine ⟨?_, ih _ _ (upd t _ _ .none) h2⟩
      cases hx : b' t with
      | none => rw [hx] at this; cases this
      | some y =>
        rw [hx] at this
        cases this with
        | some hy => rw [hρ _ _ _ hy ho]

/-! ### Calls that do not overlap -/

theorem oneByOne_linSeq {Op R : Type} (l : List (Nat × Op × R)) : ∀ (tr : List (CEv Op R)) (st : Nat → TS Op R), hist tr = oneByOne l → Wf allIdle tr st → linSeq tr = l.map Prod.snd := by
  induction l with
  | nil =>
    intro tr st h hw
    cases hw with
    | nil => rfl
    | cons hs _ =>
      cases hs with
      | inv _ => simp [hist, oneByOne] at h
      | lin h1 => cases h1
      | ret h1 => cases h1
  | cons x l ih =>
    intro tr st h hw
    obtain ⟨t, o, r⟩ := x
    cases hw with
    | nil => cases h
    | @cons _ st1 _ e tr hs hw =>
      cases hs with
      | lin h1 => cases h1
      | ret h1 => cases h1
      | @inv t1 o1 _ =>
        replace h : HEv.inv t1 o1 :: hist tr = .inv t o :: .ret t o r :: oneByOne l := h
        rw [List.cons.injEq, HEv.inv.injEq] at h
        obtain ⟨⟨rfl, rfl⟩, h⟩ := h
        cases hw with
        | nil => cases h
        | @cons _ st2 _ e tr hs hw =>
          cases hs with
          | inv _ => simp [hist] at h
          | @ret t2 o2 r2 h1 =>
            simp only [hist, List.filterMap_cons, List.cons.injEq, HEv.ret.injEq] at h
            obtain ⟨⟨rfl, rfl, rfl⟩, -⟩ := h
            simp [Function.update_self] at h1
          | @lin t2 o2 r2 h1 =>
            by_cases ht : t2 = t1
            · subst ht
              rw [Function.update_self] at h1
              cases h1
              cases hw with
              | nil => cases h
              | @cons _ st3 _ e tr hs hw =>
                cases hs with
                | inv _ => simp [hist] at h
                | @lin t3 o3 r3 h1 =>
                  by_cases ht : t3 = t2
                  · subst ht; simp [Function.update_self] at h1
                  · simp [ht, allIdle] at h1
                | @ret t3 o3 r3 h1 =>
                  simp only [hist, List.filterMap_cons, List.cons.injEq, HEv.ret.injEq] at h
                  obtain ⟨⟨rfl, rfl, rfl⟩, h'⟩ := h
                  rw [Function.update_self] at h1
                  cases h1
                  have e : Function.update (Function.update (Function.update (allIdle (Op := Op) (R := R)) t3 (.pend o3)) t3 (.done o3 r2)) t3 .idle = allIdle := by
                    funext u
                    by_cases hu : u = t3
                    · subst hu; simp [allIdle]
                    · simp [hu]
                  rw [e] at hw
                  have := ih tr st h' hw
                  simpa [linSeq] using this
            · simp [ht, allIdle] at h1

theorem oneByOne_legal {σ Op R : Type} (S : σ → Op → R → σ → Prop) (s0 : σ) (l : List (Nat × Op × R)) : Linearizable S s0 (oneByOne l) ↔ ∃ s', LegalRun S s0 (l.map Prod.snd) s' := by
  constructor
  · rintro ⟨tr, st, s', h1, h2, h3⟩
    rw [oneByOne_linSeq l tr st h1 h2] at h3
    exact ⟨s', h3⟩
  · rintro ⟨s', h⟩
    refine ⟨l.flatMap fun x => [.inv x.1 x.2.1, .lin x.1 x.2.1 x.2.2, .ret x.1 x.2.1 x.2.2], allIdle, s', ?_, ?_, ?_⟩
    · clear h
      induction l with
      | nil => rfl
      | cons x l ih => simpa [hist, oneByOne] using ih
    · clear h
      induction l with
      | nil => exact .nil
      | cons x l ih =>
        obtain ⟨t, o, r⟩ := x
        refine .cons (.inv rfl) (.cons (.lin (by simp)) (.cons (.ret (by simp)) ?_))
        have e : Function.update (Function.update (Function.update (allIdle (Op := Op) (R := R)) t (.pend o)) t (.done o r)) t .idle = allIdle := by
          funext u
          by_cases hu : u = t
          · subst hu; simp [allIdle]
          · simp [hu]
        rw [e]
        exact ih
    · have : linSeq (l.flatMap fun x => [CEv.inv x.1 x.2.1, .lin x.1 x.2.1 x.2.2, .ret x.1 x.2.1 x.2.2]) = l.map Prod.snd := by
        clear h
        induction l with
        | nil => rfl
        | cons x l ih => simpa [linSeq] using ih
      rw [this]
      exact h

/-! ### An environment with a given order of iteration -/

open Classical in
/-- The elements in the order of the indices. -/
noncomputable def orderBy (is : List Nat) {α : Type} (xs : List α) : List α := if is.Perm (List.range xs.length) then is.filterMap (xs[·]?) else xs

theorem range_getElem {α : Type} (xs : List α) : (List.range xs.length).filterMap (xs[·]?) = xs := by
  induction xs using List.reverseRecOn with
  | nil => rfl
  | append_singleton l a ih =>
    rw [List.length_append, List.length_singleton, List.range_succ, List.filterMap_append]
    congr 1
    · exact (List.filterMap_congr fun x hx => List.getElem?_append_left (List.mem_range.1 hx)).trans ih
    · simp

theorem orderBy_perm (is : List Nat) {α : Type} (xs : List α) : (orderBy is xs).Perm xs := by
  unfold orderBy
  split
  · rename_i h
    exact (h.filterMap _).trans (.of_eq (range_getElem xs))
  · exact .refl _

theorem orderBy_of_perm {l m : List (Str × Ref)} (hm : m.Nodup) (h : l.Perm m) : ∃ is : List Nat, orderBy is m = l := by
  classical
  refine ⟨l.map fun e => m.idxOf e, ?_⟩
  have h1 : (l.map fun e => m.idxOf e).Perm (List.range m.length) := by
    refine (h.map _).trans (.of_eq ?_)
    apply List.ext_getElem
    · simp
    · intro i h1 h2
      simp only [List.getElem_map, List.getElem_range]
      exact hm.idxOf_getElem i (by simpa using h1)
  unfold orderBy
  rw [if_pos h1, List.filterMap_map]
  have : ∀ l' : List (Str × Ref), (∀ e ∈ l', e ∈ m) → l'.filterMap ((fun x => m[x]?) ∘ fun e => m.idxOf e) = l' := by
    intro l' hl'
    induction l' with
    | nil => rfl
    | cons e l' ih =>
      have he := hl' e (by simp)
      have : m[m.idxOf e]? = some e := by
        rw [List.getElem?_eq_getElem (List.idxOf_lt_length_of_mem he), List.getElem_idxOf]
      rw [List.filterMap_cons]
      simp only [Function.comp, this]
      rw [← Function.comp_def, ih fun x hx => hl' x (by simp [hx])]
  exact this l fun e he => h.mem_iff.1 he

variable {F : Type} [GoFloat F] [GoSqrt F] [GoExp F]

noncomputable def envOrder (is : List Nat) : Env F := { envAt (F := F) 0 with order := orderBy is, order_perm := orderBy_perm is }

/-! ### The program -/

theorem find_lookup (m : List (Str × Ref)) : find m = lookup m := rfl

/-- One call at what it works on: an object, or the map of a registry. -/
def PartCall (w0 : World F) (k : Ref ⊕ Option Nat) (x : Option (Obj F) × (Str → Option Ref)) (o : ProgOp F) (r : ProgSeen F) (x' : Option (Obj F) × (Str → Option Ref)) : Prop :=
  match k with
  | .inl k => ∃ y y' o1 r1, x.1 = some y ∧ x'.1 = some y' ∧ o = .call o1.1 o1.2 ∧ r = .call r1 ∧ DoesKept k y o1 r1 y'
  | .inr (some _) => ∃ m r1, asReg o m ∧ r = regSeen o r1 ∧ RegCall (kindsIn w0) x.2 m r1 x'.2
  | .inr none => False

/-- The state of the parts in the world `w`. -/
def partsOf (w : World F) : Ref ⊕ Option Nat → Option (Obj F) × (Str → Option Ref)
  | .inl k => (w.objs k, fun _ => none)
  | .inr (some i) => (none, find (w.regs i))
  | .inr none => (none, fun _ => none)

/-- Names are not mixed up between histograms and samples, and values passed exist. -/
def Proper (w0 : World F) (o : ProgOp F) : Prop := (∀ r c s, o = .call r c → w0.objs r = some (.hist (.std s)) → ofHist c = true) ∧ passesOld w0 o

/-- The world while the program runs. -/
structure DuringReg (w0 : World F) (s : Ref ⊕ Option Nat → Option (Obj F) × (Str → Option Ref)) (w : World F) : Prop where
  ok : w.Ok
  leq : w0.Leq w
  objs : ∀ k x, (s (.inl k)).1 = some x → x.ty ≠ .meter → w.objs k = some x
  regs : ∀ i, lookup (w.regs i) = (s (.inr (some i))).2

theorem step_reg (env : Env F) (g : Reg) (o : RegOp F) (w : World F) : step env (.reg g o) w = ((regCall env g o w).1, (regCall env g o w).2.map .reg) := by
  have e : step env (.reg g o) w = (do return OpOut.reg (← regCall env g o) : Act F (OpOut F)) w := rfl
  rw [e, act_bind]
  rcases regCall env g o w with ⟨w', p | a⟩ <;> rfl

/-- Whether an object is a metric does not change. -/
theorem metric_le {w0 w : World F} (hle : w0.Leq w) {r : Ref} (hr : w0.objs r ≠ none) : ∃ o, w.objs r = some o ∧ o.isMetric = (kindsIn w0).metric r := by
  obtain ⟨o0, h0⟩ := Option.ne_none_iff_exists'.1 hr
  obtain ⟨o, h1, h2⟩ := hle.ty r _ ⟨o0, h0, rfl⟩
  refine ⟨o, h1, ?_⟩
  change _ = (match w0.objs r with | some o => metricKind o | none => false)
  rw [h0]
  change _ = metricKind o0
  rw [metricKind_eq]
  cases o <;> cases o0 <;> simp_all [Obj.ty, Obj.isMetric]

/-- What `register` does, in terms of the map. -/
theorem register_bound {w0 w : World F} (hle : w0.Leq w) {i : Nat} {name : Str} {r : Ref} (hr : w0.objs r ≠ none) (hm : lookup (w.regs i) name = none) :
    (register i name (.obj r) w).2 = .ok .nil ∧ lookup ((register i name (.obj r) w).1.regs i) = bound (kindsIn w0) (lookup (w.regs i)) name r ∧
      ∀ j, j ≠ i → (register i name (.obj r) w).1.regs j = w.regs j := by
  obtain ⟨o, h1, h2⟩ := metric_le hle hr
  rw [register_eq, hm]
  simp only [h1, h2, bound]
  by_cases hk : (kindsIn w0).metric r = true
  · simp only [hk, if_true, true_and]
    refine ⟨?_, fun j hj => Function.update_of_ne hj ..⟩
    rw [Function.update_self]
    funext n
    rw [lookup_cons]
    by_cases hn : n = name
    · subst hn; simp
    · simp [hn, Ne.symm hn]
  · simp [hk]

/-- The steps of the one-at-a-time model at a registry. -/
theorem regStep_world {w0 w : World F} (hok : w.Ok) (hle : w0.Leq w) {o : ProgOp F} {i : Nat} (hk : worksOn w0 o = .inr (some i)) (hpr : passesOld w0 o) {m : ROp Ref} {r1 : RRes Ref} {m' : Str → Option Ref}
    (ho : asReg o m) (hc : RegCall (kindsIn w0) (lookup (w.regs i)) m r1 m') :
    ∃ w', ProgCall w o (regSeen o r1) w' ∧ w'.Ok ∧ w.Leq w' ∧ (∀ k x, w.objs k = some x → x.ty ≠ .meter → w'.objs k = some x) ∧ lookup (w'.regs i) = m' ∧
      ∀ j, j ≠ i → w'.regs j = w.regs j := by
  cases o with
  | call r c => cases hk
  | each g =>
    cases ho
    cases hc with
    | @each l hl =>
      have hb : base g = some i := by simpa [worksOn] using hk
      have hkeys := hok.keys i
      have hn : (w.regs i).Nodup := .of_map _ hkeys
      obtain ⟨is, his⟩ := orderBy_of_perm hn (l := l) ((List.perm_ext_iff_of_nodup hl.1 hn).2 (by
        rintro ⟨name, v⟩
        rw [hl.2]
        simp only [and_true]
        exact ⟨lookup_some_mem, lookup_of_mem hkeys⟩))
      refine ⟨w, ⟨envOrder is, ?_⟩, hok, .refl _, fun _ _ h _ => h, rfl, fun _ _ => rfl⟩
      rw [eachList_base _ _ _ hb]
      change (w, Except.ok (some ((orderBy is (w.regs i)).filter _))) = _
      rw [his]
  | reg g o =>
    have hb : base g = some i := by simpa [worksOn] using hk
    -- it is enough to know what the call of the base registry does
    have fin : ∀ {x w'}, regCall (envAt 0) g o w = (w', .ok x) → (∀ k x, w.objs k = some x → x.ty ≠ .meter → w'.objs k = some x) → lookup (w'.regs i) = m' →
        (∀ j, j ≠ i → w'.regs j = w.regs j) → ProgSeen.reg x = regSeen (.reg g o) r1 → ∃ w', ProgCall w (.reg g o) (regSeen (.reg g o) r1) w' ∧ w'.Ok ∧ w.Leq w' ∧
          (∀ k x, w.objs k = some x → x.ty ≠ .meter → w'.objs k = some x) ∧ lookup (w'.regs i) = m' ∧ ∀ j, j ≠ i → w'.regs j = w.regs j := by
      intro x w' h1 h2 h3 h4 h5
      have hst := hok.step (envAt 0) (.reg g o)
      have e := step_reg (envAt 0) g o w
      rw [h1] at e
      rw [e] at hst
      exact ⟨w', by rw [← h5]; exact ⟨envAt 0, e⟩, hst.1, hst.2, h2, h3, h4⟩
    obtain ⟨p1, p2, p3, p4, p5, -⟩ := regCall_prefix (envAt (F := F) 0) g
    rw [hb] at p5
    simp only [hb, fullName_eq] at p1 p2 p3 p4
    have stops : ∀ {P w'}, Stopping P w w' → ∀ k (x : Obj F), w.objs k = some x → x.ty ≠ .meter → w'.objs k = some x := by
      intro P w' hst k x hx hty
      rcases hst k with h | ⟨-, q, h, -⟩
      · rw [h, hx]
      · rw [hx] at h
        cases h
        exact absurd rfl hty
    cases o with
    | get name =>
      cases ho
      cases hc
      refine fin ((congrFun (p1 name) w).trans (get_eq ..)) (fun _ _ h _ => h) rfl (fun _ _ => rfl) ?_
      cases lookup (w.regs i) (baseName g name) <;> rfl
    | getOrRegister name v =>
      cases v with
      | obj r =>
        cases ho
        cases hc with
        | @found _ _ v h =>
          refine fin ((congrFun (p2 name _) w).trans (?_ : _ = (w, Except.ok (RegOut.metric v)))) (fun _ _ h _ => h) rfl (fun _ _ => rfl) rfl
          change getOrRegister _ _ _ _ w = _
          rw [getOrRegister_eq, h]
        | given h =>
          obtain ⟨-, h2, h3⟩ := register_bound hle hpr h
          refine fin ((congrFun (p2 name _) w).trans (?_ : _ = ((register i (baseName g name) (.obj r) w).1, Except.ok (RegOut.metric r)))) ?_ h2 h3 rfl
          · change getOrRegister _ _ _ _ w = _
            rw [getOrRegister_eq, h]
          · intro k x hx _
            rw [(register_objs ..).1, hx]
      | _ => cases ho
    | register name v =>
      cases v with
      | obj r =>
        cases ho
        cases hc with
        | duplicate h =>
          refine fin ((congrFun (p3 name _) w).trans (?_ : _ = (w, Except.ok (RegOut.duplicate (baseName g name))))) (fun _ _ h _ => h) rfl (fun _ _ => rfl) rfl
          change register _ _ _ w = _
          rw [register_eq, h]
        | registered h =>
          obtain ⟨h1, h2, h3⟩ := register_bound hle hpr h
          refine fin ((congrFun (p3 name _) w).trans (?_ : _ = ((register i (baseName g name) (.obj r) w).1, Except.ok RegOut.nil))) ?_ h2 h3 rfl
          · change register _ _ _ w = _
            rw [← h1]
          · intro k x hx _
            rw [(register_objs ..).1, hx]
      | _ => cases ho
    | unregister name =>
      cases ho
      cases hc with
      | unregister hl =>
        refine fin (w' := (unregister (envAt 0) i (baseName g name) w).1) (x := .unit) ((congrFun (p4 name) w).trans ?_) (stops (unregister_stopping (envAt 0) i (baseName g name) w)) ?_ ?_ rfl
        · change (do unregister (envAt 0) i (baseName g name); return RegOut.unit : Act F (RegOut F)) w = _
          rw [act_bind, unregister_eq]
          rfl
        · rw [regs_unregister, Function.update_self]
          funext n
          rw [lookup_filter]
          by_cases hn : n = baseName g name
          · subst hn; simp
          · simp [hn, Ne.symm hn]
        · intro j hj
          rw [regs_unregister, Function.update_of_ne hj]
    | unregisterAll =>
      cases ho
      cases hc with
      | unregisterAll hl =>
        obtain ⟨h1, h2⟩ := unregisterAll_eq (envAt 0) i w
        refine fin (w' := (unregisterAll (envAt 0) i w).1) (x := .unit) ((congrFun p5 w).trans ?_) (stops (unregisterAll_stopping (envAt 0) i w)) ?_ ?_ rfl
        · change (do unregisterAll (envAt 0) i; return RegOut.unit : Act F (RegOut F)) w = _
          rw [act_bind]
          rcases hx : unregisterAll (envAt 0) i w with ⟨w1, p | a⟩
          · rw [hx] at h1; cases h1
          · rfl
        · rw [h2, Function.update_self]
          rfl
        · intro j hj
          rw [h2, Function.update_of_ne hj]
    | runHealthchecks => cases ho

theorem progStep_world {w0 w : World F} {s : Ref ⊕ Option Nat → Option (Obj F) × (Str → Option Ref)} (hw : DuringReg w0 s w) {o : ProgOp F} {r : ProgSeen F} {x : Option (Obj F) × (Str → Option Ref)}
    (hpr : Proper w0 o) (h : PartCall w0 (worksOn w0 o) (s (worksOn w0 o)) o r x) :
    ∃ w', ProgCall w o r w' ∧ DuringReg w0 (Function.update s (worksOn w0 o) x) w' := by
  rcases hk : worksOn w0 o with k | _ | i
  · rw [hk] at h
    obtain ⟨y, y', ⟨r0, c⟩, r1, hy, hy', rfl, rfl, hd, hn, hn'⟩ := h
    have hx := hw.objs _ _ hy hn
    simp only [worksOn, Sum.inl.injEq] at hk
    obtain ⟨env, he⟩ := hd w hw.ok hx (by
      unfold usedBy at hk
      split at hk
      · rename_i q hq
        subst hk
        exact .inr ⟨hw.leq.frozen _ _ hq rfl, hpr.1 _ _ _ rfl hq⟩
      · exact .inl hk)
    have hst := hw.ok.step env (.call r0 c)
    have e := step_call env r0 c w
    rw [e] at hst
    refine ⟨(call env r0 c w).1, ⟨env, by rw [e], by rw [e]; exact he.shows⟩, hst.1, hw.leq.trans hst.2, ?_, ?_⟩
    · intro j z hj hz
      by_cases hjk : j = k
      · subst hjk
        rw [Function.update_self, hy'] at hj
        rw [← hj]
        exact he.obj
      · rw [Function.update_of_ne (by simpa using hjk)] at hj
        have := hw.objs _ _ hj hz
        rw [he.other j hjk (hw.ok.lt this)]
        exact this
    · intro i
      rw [Function.update_of_ne (by simp), ← hw.regs i, (call_regs env r0 c w).1]
  · rw [hk] at h
    exact h.elim
  · rw [hk] at h
    obtain ⟨m, r1, ho, rfl, hc⟩ := h
    rw [← hw.regs i] at hc
    obtain ⟨w', h1, h2, h3, h4, h5, h6⟩ := regStep_world hw.ok hw.leq hk hpr.2 ho hc
    refine ⟨w', h1, h2, hw.leq.trans h3, ?_, ?_⟩
    · intro j z hj hz
      rw [Function.update_of_ne (by simp)] at hj
      exact h4 _ _ (hw.objs _ _ hj hz) hz
    · intro j
      by_cases hj : j = i
      · subst hj
        rw [Function.update_self]
        exact h5
      · rw [Function.update_of_ne (by simpa using hj), h6 j hj]
        exact hw.regs j

theorem progWorld_run {w0 : World F} {s s' : Ref ⊕ Option Nat → Option (Obj F) × (Str → Option Ref)} {l : List (ProgOp F × ProgSeen F)}
    (h : LegalRun (Together (σ := fun _ => Option (Obj F) × (Str → Option Ref)) (worksOn w0) (fun _ o o' => o' = o ∧ Proper w0 o) (fun _ _ r => r) (PartCall w0)) s l s') :
    ∀ w, DuringReg w0 s w → ∃ w', LegalRun ProgCall w l w' ∧ DuringReg w0 s' w' := by
  induction h with
  | nil => exact fun w hw => ⟨w, .nil, hw⟩
  | @cons s s1 s2 o r l hs _ ih =>
    intro w hw
    obtain ⟨o', r', x, ⟨rfl, ht⟩, rfl, hd, rfl⟩ := hs
    obtain ⟨w1, h1, h2⟩ := progStep_world hw ht hd
    obtain ⟨w2, h3, h4⟩ := ih w1 h2
    exact ⟨w2, .cons h1 h3, h4⟩

theorem regProgram_linearizable {sorter : Nat → MemProg Unit} (hs : SortsInPlace sorter) {w0 : World F} (hw : w0.Ok) {h : List (HEv (ProgOp F) (ProgSeen F))} (hp : RegProgramHistory sorter w0 h) :
    Linearizable ProgCall w0 h := by
  obtain ⟨tr, st, s', h1, h2, h3⟩ := linearizable_together (σ := fun _ => Option (Obj F) × (Str → Option Ref)) (key := worksOn w0) (ρ := fun _ o o' => o' = o ∧ Proper w0 o) (g := fun _ _ r => r)
    (S := PartCall w0) (s0 := partsOf w0) hp.one (by
      intro k
      refine ⟨part (worksOn w0) k h, ?_, ?_⟩
      · refine List.forall₂_same.2 fun e he => ?_
        have ht : Proper w0 (evOp e) := ⟨fun r c s => hp.typed e (List.mem_of_mem_filter he) r c s, hp.old e (List.mem_of_mem_filter he)⟩
        cases e with
        | inv t o => exact .inv ⟨rfl, ht⟩
        | ret t o r => exact .ret (g := fun _ r => r) ⟨rfl, ht⟩
      · have hone : OneCall (fun _ => none) (part (worksOn w0) k h) := oneCall_part_none _ _ hp.one
        rcases k with k | _ | i
        · obtain ⟨hk', hf, hpr⟩ := hp.object k
          rcases hk : w0.objs k with _ | x
          · rw [hk] at hpr
            change _ = [] at hpr
            rw [hpr] at hf
            cases hx : part (worksOn w0) (.inl k) h with
            | nil => exact ⟨[], _, _, rfl, .nil, .nil⟩
            | cons a b => rw [hx] at hf; cases hf
          · rw [hk] at hpr
            have hone' : OneCall (fun _ => none) hk' := oneCall_same (by
              rintro o ⟨a1, a2⟩ ⟨b1, b2⟩ h1 h2
              rw [h1] at h2
              simpa using h2) hf _ _ (fun _ => .none) hone
            have := produced_linearizable (k := k) hs hone' hpr
            rw [show partsOf w0 (.inl k) = (some x, fun _ => none) by rw [partsOf, hk]]
            refine this.lift (fun x => ((some x, fun _ => none) : Option (Obj F) × (Str → Option Ref))) ?_ hone hf
            intro y o o' r' y' ho hd
            exact ⟨y, y', o', r', rfl, rfl, ho, rfl, hd⟩
        · rw [hp.foreign]
          exact ⟨[], _, _, rfl, .nil, .nil⟩
        · obtain ⟨sched, s, ls, tr, hrun, hf⟩ := hp.registry i
          have := C50_linearizable _ _ (hw.keys i) _ _ _ _ hrun
          refine this.lift (fun m => ((none, m) : Option (Obj F) × (Str → Option Ref))) ?_ hone hf
          intro y o o' r' y' ho hd
          exact ⟨o', r', ho, rfl, hd⟩)
  obtain ⟨w', h4, -⟩ := progWorld_run h3 w0 ⟨hw, .refl _, fun _ _ h _ => h, fun _ => rfl⟩
  exact ⟨tr, st, w', h1, h2, h4⟩

end GoMetrics
