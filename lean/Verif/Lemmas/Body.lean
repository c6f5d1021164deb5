import Verif.Spec.Body
import Verif.Lemmas.Machine
import Mathlib.Data.List.Induction

/-! Objects whose methods are guarded by a mutex are linearizable. -/

namespace GoMetrics
variable {S X R Op : Type}

/-- A call that has taken effect did so at some moment. -/
theorem Wf.done_lin {a : List (CEv Op R)} {st : Nat → TS Op R} (h : Wf allIdle a st) {t : Nat} {o : Op} {r : R} (hd : st t = .done o r) : ∃ a1 a2, a = a1 ++ .lin t o r :: a2 := by
  induction a using List.reverseRecOn generalizing st with
  | nil => cases h; cases hd
  | append_singleton a e ih =>
    obtain ⟨st', h1, h2⟩ := h.snoc_inv
    have back : st' t = .done o r → ∃ a1 a2, a ++ [e] = a1 ++ .lin t o r :: a2 := fun hd' =>
      let ⟨a1, a2, ha⟩ := ih h1 hd'
      ⟨a1, a2 ++ [e], by rw [ha]; simp⟩
    cases h2 with
    | @inv u o' hu =>
      by_cases htu : t = u
      · subst htu; simp at hd
      · rw [Function.update_of_ne htu] at hd; exact back hd
    | @lin u o' r' hu =>
      by_cases htu : t = u
      · subst htu; simp at hd; obtain ⟨rfl, rfl⟩ := hd; exact ⟨a, [], rfl⟩
      · rw [Function.update_of_ne htu] at hd; exact back hd
    | @ret u o' r' hu =>
      by_cases htu : t = u
      · subst htu; simp at hd
      · rw [Function.update_of_ne htu] at hd; exact back hd

theorem LegalRun.mono {σ : Type} {A B : σ → Op → R → σ → Prop} {s l s'} (h : ∀ s o r s', A s o r s' → B s o r s') (hr : LegalRun A s l s') : LegalRun B s l s' := by
  induction hr with
  | nil => exact .nil
  | cons h1 _ ih => exact .cons (h _ _ _ _ h1) ih

/-- With an invariant of the states. -/
theorem LegalRun.mono_inv {σ : Type} {A B : σ → Op → R → σ → Prop} (J : σ → Prop) (h : ∀ s o r s', J s → A s o r s' → B s o r s' ∧ J s') {s l s'} (hj : J s) (hr : LegalRun A s l s') : LegalRun B s l s' ∧ J s' := by
  induction hr with
  | nil => exact ⟨.nil, hj⟩
  | cons h1 _ ih =>
    obtain ⟨h2, hj'⟩ := h _ _ _ _ hj h1
    obtain ⟨h3, h4⟩ := ih hj'
    exact ⟨.cons h2 h3, h4⟩

/-- Where a goroutine can be. -/
inductive Stage : Body S X R → Prop where
  | before {b} : b.guarded → Stage b
  | within {b} : b.inside → Stage b
  | after {r} : Stage (.ret r)

def BodyL.Ok : BodyL Op S X R → Prop
  | .idle => True
  | .run _ b => Stage b

def BodyL.abs : BodyL Op S X R → TS Op R
  | .idle => .idle
  | .run o (.ret r) => .done o r
  | .run o _ => .pend o

theorem Body.guarded.abs {b : Body S X R} (h : b.guarded) (o : Op) : (BodyL.run o b).abs = .pend o := by cases b <;> first | rfl | cases h
theorem Body.inside.abs {b : Body S X R} (h : b.inside) (o : Op) : (BodyL.run o b).abs = .pend o := by cases b <;> first | rfl | cases h

theorem bodyStep_local {prog : Op → Body S X R} (hp : ∀ o, (prog o).guarded) {t i s l s' l' es} (hl : l.Ok) (h : bodyStep prog t i s l = some (s', l', es)) : l'.Ok ∧ LocalEv t l.abs es l'.abs := by
  unfold bodyStep at h
  split at h
  · cases h
    refine ⟨.before (hp _), ?_⟩
    rw [(hp _).abs]
    exact .inv
  · cases h
    cases hl with
    | before h => exact ⟨.before (h _), by rw [(h _).abs]; exact .none⟩
    | within h => exact ⟨.within (h _), by rw [(h _).abs]; exact .none⟩
  · split at h
    · cases h
      cases hl with
      | before h => exact ⟨.within h, by rw [Body.inside.abs h]; exact .none⟩
      | within h => cases h
    · cases h
  · cases h
    cases hl with
    | before h => cases h
    | within h => exact ⟨.within (h _), by rw [(h _).abs]; exact .none⟩
  · cases h
    exact ⟨.after, .lin⟩
  · rename_i hk
    cases h
    cases hl with
    | before h => cases h
    | within h =>
      rename_i k
      cases k with
      | ret r => exact absurd rfl (hk r)
      | _ => cases h
  · cases h
    exact ⟨trivial, .ret⟩
  · cases h

theorem body_wf {prog : Op → Body S X R} (hp : ∀ o, (prog o).guarded) {s0 sched s ls tr} (h : (bodyMachine prog).run s0 (fun _ => .idle) sched = some (s, ls, tr)) :
    Wf allIdle tr (fun t => (ls t).abs) := by
  have := (bodyMachine prog).wf (l0 := fun _ => BodyL.idle) some BodyL.abs BodyL.Ok (fun _ => trivial)
    (fun t i s l s' l' es hl hst => by simpa using bodyStep_local hp hl hst) sched s ls tr h
  rw [List.filterMap_some] at this
  exact this

/-- `a`: the object when the mutex was last free. -/
def BodyAt (prog : Op → Body S X R) (s : MutexS S) (a : S) (t : Nat) : BodyL Op S X R → Prop
  | .idle => s.mutex ≠ some t
  | .run o b => (b.guarded ∧ s.mutex ≠ some t ∧ ∀ x x' r, RunAlone b x x' r → RunAlone (prog o) x x' r) ∨
      (b.inside ∧ s.mutex = some t ∧ ∀ x' r, RunAlone b s.obj x' r → RunAlone (prog o) a x' r) ∨ ((∃ r, b = .ret r) ∧ s.mutex ≠ some t)

structure BodyInv (prog : Op → Body S X R) (s0 : S) (s : MutexS S) (ls : Nat → BodyL Op S X R) (tr : List (CEv Op R)) (a : S) : Prop where
  run : LegalRun (fun s o r s' => RunAlone (prog o) s s' r) s0 (linSeq tr) a
  free : s.mutex = none → s.obj = a
  at_ : ∀ t, BodyAt prog s a t (ls t)

theorem linSeq_nil {a : List (CEv Op R)} : linSeq (a ++ []) = linSeq a := by rw [List.append_nil]

/-- Others do not notice a step that changes neither the fields nor the mutex (as far as they are concerned). -/
theorem BodyAt.frame {prog : Op → Body S X R} {s s' : MutexS S} {a a' : S} {u : Nat} {l : BodyL Op S X R} (h : BodyAt prog s a u l) (hm : s.mutex ≠ some u) (hm' : s'.mutex ≠ some u) : BodyAt prog s' a' u l := by
  cases l with
  | idle => exact hm'
  | run o b =>
    rcases h with ⟨h1, -, h3⟩ | ⟨-, h2, -⟩ | ⟨h1, -⟩
    · exact .inl ⟨h1, hm', h3⟩
    · exact absurd h2 hm
    · exact .inr (.inr ⟨h1, hm'⟩)

theorem body_inv {prog : Op → Body S X R} (hp : ∀ o, (prog o).guarded) {x0 sched s ls tr} (h : (bodyMachine prog).run ⟨none, x0⟩ (fun _ => .idle) sched = some (s, ls, tr)) :
    ∃ a, BodyInv prog x0 s ls tr a := by
  refine (bodyMachine prog).induct (fun s ls tr => ∃ a, BodyInv prog x0 s ls tr a) ⟨x0, .nil, fun _ => rfl, fun t => by simp [BodyAt]⟩ ?_ sched s ls tr h
  rintro s ls tr t i s' l' es ⟨a, hr, hf, ha⟩ hst
  have ht := ha t
  change bodyStep prog t i s (ls t) = some (s', l', es) at hst
  generalize hlt : ls t = l at hst ht
  -- every other goroutine, if the mutex is `t`'s or free before and after
  have others : ∀ (s' : MutexS S) (a' : S) (l' : BodyL Op S X R), (s.mutex = none ∨ s.mutex = some t) → (s'.mutex = none ∨ s'.mutex = some t) → BodyAt prog s' a' t l' →
      ∀ u, BodyAt prog s' a' u (Function.update ls t l' u) := by
    intro s' a' l' h1 h2 h3 u
    by_cases hu : u = t
    · subst hu; simpa using h3
    · rw [Function.update_of_ne hu]
      refine (ha u).frame ?_ ?_
      · rcases h1 with h1 | h1 <;> rw [h1] <;> simp [Ne.symm hu]
      · rcases h2 with h2 | h2 <;> rw [h2] <;> simp [Ne.symm hu]
  -- steps that touch neither the fields nor the mutex
  have same : ∀ l', BodyAt prog s a t l' → ∀ u, BodyAt prog s a u (Function.update ls t l' u) := by
    intro l' h3 u
    by_cases hu : u = t
    · subst hu; simpa using h3
    · rw [Function.update_of_ne hu]; exact ha u
  unfold bodyStep at hst
  split at hst
  · cases hst
    refine ⟨a, by simpa [linSeq] using hr, hf, same _ (.inl ⟨hp _, ht, fun _ _ _ h => h⟩)⟩
  · cases hst
    refine ⟨a, by rwa [linSeq_nil], hf, same _ ?_⟩
    rcases ht with ⟨h1, h2, h3⟩ | ⟨h1, h2, h3⟩ | ⟨⟨r, h1⟩, -⟩
    · exact .inl ⟨h1 _, h2, fun x x' r h => h3 _ _ _ (.ask _ h)⟩
    · exact .inr (.inl ⟨h1 _, h2, fun x' r h => h3 _ _ (.ask _ h)⟩)
    · cases h1
  · split at hst
    · rename_i hm
      cases hst
      refine ⟨a, by rwa [linSeq_nil], (fun h => by cases h), others _ _ _ (.inl hm) (.inr rfl) ?_⟩
      rcases ht with ⟨h1, h2, h3⟩ | ⟨h1, -⟩ | ⟨⟨r, h1⟩, -⟩
      · exact .inr (.inl ⟨h1, rfl, fun x' r h => h3 _ _ _ (.lock (by rw [← hf hm]; exact h))⟩)
      · cases h1
      · cases h1
    · cases hst
  · cases hst
    rcases ht with ⟨h1, -⟩ | ⟨h1, h2, h3⟩ | ⟨⟨r, h1⟩, -⟩
    · cases h1
    · refine ⟨a, by rwa [linSeq_nil], (fun h => by rw [h2] at h; cases h), others _ _ _ (.inr h2) (.inr h2) ?_⟩
      exact .inr (.inl ⟨h1 _, h2, fun x' r h => h3 _ _ (.act h)⟩)
    · cases h1
  · cases hst
    rcases ht with ⟨h1, -⟩ | ⟨h1, h2, h3⟩ | ⟨⟨r, h1⟩, -⟩
    · cases h1
    · refine ⟨s.obj, ?_, fun _ => rfl, others _ _ _ (.inr h2) (.inl rfl) (.inr (.inr ⟨⟨_, rfl⟩, by simp⟩))⟩
      rw [linSeq_append]
      exact hr.append (.cons (h3 _ _ (.unlock .ret)) .nil)
    · cases h1
  · rename_i hk
    cases hst
    rcases ht with ⟨h1, -⟩ | ⟨h1, -⟩ | ⟨⟨r, h1⟩, -⟩
    · cases h1
    · rename_i k
      cases k with
      | ret r => exact absurd rfl (hk r)
      | _ => cases h1
    · cases h1
  · cases hst
    refine ⟨a, by simpa [linSeq] using hr, hf, same _ ?_⟩
    rcases ht with ⟨h1, -⟩ | ⟨h1, -⟩ | ⟨-, h2⟩
    · cases h1
    · cases h1
    · exact h2
  · cases hst

/-- Only the goroutine that holds the mutex is inside. -/
theorem BodyAt.holds {prog : Op → Body S X R} {s : MutexS S} {a : S} {t : Nat} {o : Op} {f : S → S} {k : S → Body S X R} (h : BodyAt prog s a t (.run o (.act f k))) : s.mutex = some t := by
  rcases h with ⟨h1, -⟩ | ⟨-, h2, -⟩ | ⟨⟨r, h1⟩, -⟩
  · cases h1
  · exact h2
  · cases h1

/-- The goroutine that holds the mutex can go on; if nobody does, everybody who is in a call can. -/
theorem BodyInv.progress [Nonempty X] {prog : Op → Body S X R} {s0 : S} {s : MutexS S} {ls : Nat → BodyL Op S X R} {tr : List (CEv Op R)} {a : S} (h : BodyInv prog s0 s ls tr a) {t : Nat} (ht : ls t ≠ .idle) :
    ∃ u i, ls u ≠ .idle ∧ ((bodyMachine prog).step u i s (ls u)).isSome := by
  obtain ⟨x⟩ := ‹Nonempty X›
  cases hm : s.mutex with
  | none =>
    cases hl : ls t with
    | idle => exact absurd hl ht
    | run o b =>
      refine ⟨t, ?_⟩
      rw [hl]
      cases b with
      | ret r => exact ⟨.step, by simp, rfl⟩
      | ask k => exact ⟨.answer x, by simp, rfl⟩
      | lock k => exact ⟨.step, by simp, by simp [bodyMachine, bodyStep, hm]⟩
      | act f k => exact ⟨.step, by simp, rfl⟩
      | unlock k => exact ⟨.step, by simp, by cases k <;> rfl⟩
  | some u =>
    have hu := h.at_ u
    cases hl : ls u with
    | idle => rw [hl] at hu; exact absurd hm hu
    | run o b =>
      rw [hl] at hu
      refine ⟨u, ?_⟩
      rw [hl]
      rcases hu with ⟨-, h2, -⟩ | ⟨h1, -, -⟩ | ⟨-, h2⟩
      · exact absurd hm h2
      · cases b with
        | ret r => cases h1
        | ask k => exact ⟨.answer x, by simp, rfl⟩
        | lock k => cases h1
        | act f k => exact ⟨.step, by simp, rfl⟩
        | unlock k => exact ⟨.step, by simp, by cases k <;> rfl⟩
      · exact absurd hm h2

theorem BodyInv.exclusive {prog : Op → Body S X R} {s0 : S} {s : MutexS S} {ls : Nat → BodyL Op S X R} {tr : List (CEv Op R)} {a : S} (h : BodyInv prog s0 s ls tr a) {t u : Nat}
    (ht : Spec.touching (ls t)) (hu : Spec.touching (ls u)) : t = u := by
  have key : ∀ v, Spec.touching (ls v) → s.mutex = some v := by
    intro v hv
    have ha := h.at_ v
    cases hl : ls v with
    | idle => rw [hl] at hv; cases hv
    | run o b =>
      rw [hl] at ha hv
      cases b with
      | act f k => exact ha.holds
      | _ => cases hv
  have := (key t ht).symm.trans (key u hu)
  cases this; rfl

/-- All goroutines idle: the calls with effect are the calls invoked. -/
theorem body_calls {prog : Op → Body S X R} (hp : ∀ o, (prog o).guarded) {x0 sched s ls tr} (h : (bodyMachine prog).run ⟨none, x0⟩ (fun _ => .idle) sched = some (s, ls, tr)) (hi : ∀ t, ls t = .idle) :
    ((linSeq tr).map Prod.fst).Perm (Spec.invoked tr) := by
  classical
  have hw := body_wf hp h
  have e : (fun t => (ls t).abs) = allIdle := by funext t; rw [hi t]; rfl
  rw [e] at hw
  rw [linSeq_map_fst]
  exact hw.lins_perm_invs.map _

/-- All goroutines idle: the fields are those after the last effect. -/
theorem BodyInv.idle {prog : Op → Body S X R} {s0 : S} {s : MutexS S} {ls : Nat → BodyL Op S X R} {tr : List (CEv Op R)} {a : S} (h : BodyInv prog s0 s ls tr a) (hi : ∀ t, ls t = .idle) : s.obj = a := by
  refine h.free ?_
  cases hm : s.mutex with
  | none => rfl
  | some u =>
    have hu := h.at_ u
    rw [hi u] at hu
    exact absurd hm hu

end GoMetrics
