import Verif.Go.Conc
import Mathlib.Data.List.Perm.Subperm
import Mathlib.Data.List.Perm.Basic
import Mathlib.Data.List.Count
import Mathlib.Tactic.SplitIfs
import Mathlib.Tactic.Push
import Mathlib.Tactic.Linarith

/-! Lemmas about well-formed traces of concurrent calls. -/

set_option linter.unusedSimpArgs false
set_option linter.unnecessarySeqFocus false

namespace GoMetrics
variable {Op R : Type}

theorem Wf.nil' {st st' : Nat → TS Op R} (h : st = st') : Wf st [] st' := h ▸ .nil

theorem Wf.append {st st' st'' : Nat → TS Op R} {a b} (h1 : Wf st a st') (h2 : Wf st' b st'') : Wf st (a ++ b) st'' := by
  induction h1 with
  | nil => exact h2
  | cons hs _ ih => exact .cons hs (ih h2)

theorem Wf.split {st st'' : Nat → TS Op R} {a b} (h : Wf st (a ++ b) st'') : ∃ st', Wf st a st' ∧ Wf st' b st'' := by
  induction a generalizing st with
  | nil => exact ⟨st, .nil, h⟩
  | cons e a ih =>
    cases h with
    | cons hs h =>
      obtain ⟨st', h1, h2⟩ := ih h
      exact ⟨st', .cons hs h1, h2⟩

theorem Wf.snoc_inv {st st'' : Nat → TS Op R} {a e} (h : Wf st (a ++ [e]) st'') : ∃ st', Wf st a st' ∧ TStep st' e st'' := by
  obtain ⟨st', h1, h2⟩ := h.split
  cases h2 with
  | cons hs h => cases h; exact ⟨st', h1, hs⟩

theorem linSeq_append (a b : List (CEv Op R)) : linSeq (a ++ b) = linSeq a ++ linSeq b := List.filterMap_append
theorem invs_append (a b : List (CEv Op R)) : invs (a ++ b) = invs a ++ invs b := List.filterMap_append
theorem lins_append (a b : List (CEv Op R)) : lins (a ++ b) = lins a ++ lins b := List.filterMap_append
theorem rets_append (a b : List (CEv Op R)) : rets (a ++ b) = rets a ++ rets b := List.filterMap_append

theorem linSeq_map_fst (a : List (CEv Op R)) : (linSeq a).map Prod.fst = (lins a).map Prod.snd := by
  induction a with
  | nil => rfl
  | cons e a ih => cases e <;> simp_all [linSeq, lins]

theorem LegalRun.split {σ : Type} {S : σ → Op → R → σ → Prop} {s s'' a b} (h : LegalRun S s (a ++ b) s'') :
    ∃ s', LegalRun S s a s' ∧ LegalRun S s' b s'' := by
  induction a generalizing s with
  | nil => exact ⟨s, .nil, h⟩
  | cons e a ih =>
    cases h with
    | cons hs h =>
      obtain ⟨s', h1, h2⟩ := ih h
      exact ⟨s', .cons hs h1, h2⟩

theorem LegalRun.append {σ : Type} {S : σ → Op → R → σ → Prop} {s s' s'' a b} (h1 : LegalRun S s a s')
    (h2 : LegalRun S s' b s'') : LegalRun S s (a ++ b) s'' := by
  induction h1 with
  | nil => exact h2
  | cons hs _ ih => exact .cons hs (ih h2)

section counting
variable [DecidableEq Op]

/-- Number of calls `x` whose effect is still to come / has happened but that have not returned. -/
def pendCount (st : Nat → TS Op R) (x : Nat × Op) : Nat := match st x.1 with | .pend o => if o = x.2 then 1 else 0 | _ => 0
def doneCount (st : Nat → TS Op R) (x : Nat × Op) : Nat := match st x.1 with | .done o _ => if o = x.2 then 1 else 0 | _ => 0

theorem Wf.counts {st st' : Nat → TS Op R} {tr} (h : Wf st tr st') (x : Nat × Op) :
    pendCount st x + (invs tr).count x = (lins tr).count x + pendCount st' x ∧
    doneCount st x + (lins tr).count x = (rets tr).count x + doneCount st' x := by
  induction h with
  | nil => simp [invs, lins, rets]
  | @cons st st1 st2 e tr hs _ ih =>
    obtain ⟨u, o'⟩ := x
    cases hs with
    | @inv t o ht =>
      by_cases hx : t = u
      · subst hx
        by_cases ho : o = o' <;>
          simp_all [invs, lins, rets, pendCount, doneCount, List.count_cons] <;> omega
      · simp_all [invs, lins, rets, pendCount, doneCount, List.count_cons, Function.update_apply, Ne.symm hx]
    | @lin t o r ht =>
      by_cases hx : t = u
      · subst hx
        by_cases ho : o = o' <;>
          simp_all [invs, lins, rets, pendCount, doneCount, List.count_cons] <;> omega
      · simp_all [invs, lins, rets, pendCount, doneCount, List.count_cons, Function.update_apply, Ne.symm hx]
    | @ret t o r ht =>
      by_cases hx : t = u
      · subst hx
        by_cases ho : o = o' <;>
          simp_all [invs, lins, rets, pendCount, doneCount, List.count_cons] <;> omega
      · simp_all [invs, lins, rets, pendCount, doneCount, List.count_cons, Function.update_apply, Ne.symm hx]

theorem Wf.rets_subperm_lins {st' : Nat → TS Op R} {tr} (h : Wf allIdle tr st') : (rets tr).Subperm (lins tr) := by
  rw [List.subperm_ext_iff]
  intro x _
  have := (h.counts x).2
  simp only [doneCount, allIdle] at this
  omega

theorem Wf.lins_subperm_invs {st' : Nat → TS Op R} {tr} (h : Wf allIdle tr st') : (lins tr).Subperm (invs tr) := by
  rw [List.subperm_ext_iff]
  intro x _
  have := (h.counts x).1
  simp only [pendCount, allIdle] at this
  omega

theorem Wf.lins_perm_invs {tr : List (CEv Op R)} (h : Wf allIdle tr allIdle) : (lins tr).Perm (invs tr) := by
  rw [List.perm_iff_count]
  intro x
  have := (h.counts x).1
  simp only [pendCount, allIdle] at this
  omega

end counting

/-- The events of one goroutine. -/
def CEv.tid : CEv Op R → Nat
  | .inv t _ => t
  | .lin t _ _ => t
  | .ret t _ _ => t

/-- A goroutine that is pending and later returns has its effect in between, with the value returned. -/
theorem Wf.lin_between {st st' st'' : Nat → TS Op R} {b t o o' r} (hp : st t = .pend o)
    (h : Wf st b st') (hr : TStep st' (.ret t o' r) st'') (hno : ∀ o r, CEv.ret t o r ∉ b) :
    o' = o ∧ ∃ b1 b2, b = b1 ++ .lin t o r :: b2 := by
  have key : ∀ {st st' : Nat → TS Op R} {b}, Wf st b st' → ∀ {o r}, st t = .done o r → (∀ o r, CEv.ret t o r ∉ b) →
      st' t = .done o r := by
    intro st st' b h
    induction h with
    | nil => intro o r h _; exact h
    | @cons st st1 st2 e tr hs _ ih =>
      intro o r hd hno
      refine ih ?_ (fun o r hm => hno o r (List.mem_cons_of_mem _ hm))
      cases hs with
      | @inv u _ hu =>
        have : u ≠ t := by rintro rfl; rw [hd] at hu; cases hu
        simp [Function.update_apply, Ne.symm this, hd]
      | @lin u _ _ hu =>
        have : u ≠ t := by rintro rfl; rw [hd] at hu; cases hu
        simp [Function.update_apply, Ne.symm this, hd]
      | @ret u _ _ hu =>
        have : u ≠ t := by rintro rfl; exact hno _ _ List.mem_cons_self
        simp [Function.update_apply, Ne.symm this, hd]
  induction h with
  | nil => cases hr with | ret h => rw [hp] at h; cases h
  | @cons st st1 st2 e tr hs htl ih =>
    have hno' : ∀ o r, CEv.ret t o r ∉ tr := fun o r hm => hno o r (List.mem_cons_of_mem _ hm)
    cases hs with
    | @inv u _ hu =>
      have : u ≠ t := by rintro rfl; rw [hp] at hu; cases hu
      obtain ⟨e, b1, b2, rfl⟩ := ih (by simp [Function.update_apply, Ne.symm this, hp]) hr hno'
      exact ⟨e, _ :: b1, b2, rfl⟩
    | @ret u _ _ hu =>
      have : u ≠ t := by rintro rfl; rw [hp] at hu; cases hu
      obtain ⟨e, b1, b2, rfl⟩ := ih (by simp [Function.update_apply, Ne.symm this, hp]) hr hno'
      exact ⟨e, _ :: b1, b2, rfl⟩
    | @lin u o1 r1 hu =>
      by_cases hut : u = t
      · subst hut
        have := key htl (o := o1) (r := r1) (by simp) hno'
        cases hr with
        | ret h =>
          rw [this] at h; cases h
          rw [hp] at hu; cases hu
          exact ⟨rfl, [], tr, rfl⟩
      · obtain ⟨e, b1, b2, rfl⟩ := ih (by simp [Function.update_apply, Ne.symm hut, hp]) hr hno'
        exact ⟨e, _ :: b1, b2, rfl⟩

/-- Effects and returns with their results. -/
def linsR (tr : List (CEv Op R)) : List (Nat × Op × R) := tr.filterMap fun | .lin t o r => some (t, o, r) | _ => none
def retsR (tr : List (CEv Op R)) : List (Nat × Op × R) := tr.filterMap fun | .ret t o r => some (t, o, r) | _ => none

theorem linsR_append (a b : List (CEv Op R)) : linsR (a ++ b) = linsR a ++ linsR b := List.filterMap_append
theorem retsR_append (a b : List (CEv Op R)) : retsR (a ++ b) = retsR a ++ retsR b := List.filterMap_append

open Classical in
/-- Whether goroutine `x.1` has taken effect with this result and not yet returned. -/
noncomputable def doneR (st : Nat → TS Op R) (x : Nat × Op × R) : Nat := if st x.1 = .done x.2.1 x.2.2 then 1 else 0

open Classical in
theorem Wf.countsR {st st' : Nat → TS Op R} {tr} (h : Wf st tr st') (x : Nat × Op × R) :
    doneR st x + (linsR tr).count x = (retsR tr).count x + doneR st' x := by
  induction h with
  | nil => simp [linsR, retsR]
  | @cons st st1 st2 e tr hs _ ih =>
    obtain ⟨t, o, r⟩ := x
    cases hs with
    | @inv u o' hu =>
      have : doneR (Function.update st u (.pend o')) (t, o, r) = doneR st (t, o, r) := by
        unfold doneR
        by_cases hut : t = u
        · subst hut; simp [hu]
        · simp [Function.update_of_ne hut]
      rw [this] at ih
      simpa [linsR, retsR] using ih
    | @lin u o' r' hu =>
      have e1 : doneR st (u, o', r') = 0 := by simp [doneR, hu]
      by_cases hx : (u, o', r') = (t, o, r)
      · obtain ⟨rfl, rfl, rfl⟩ := by simpa using hx
        have e2 : doneR (Function.update st u (.done o' r')) (u, o', r') = 1 := by simp [doneR]
        rw [e2] at ih
        simp only [linsR, retsR, List.filterMap_cons, List.count_cons_self] at ih ⊢
        omega
      · have e2 : doneR (Function.update st u (.done o' r')) (t, o, r) = doneR st (t, o, r) := by
          unfold doneR
          by_cases hut : t = u
          · subst hut
            simp at hx
            simp [hu]
            intro h1 h2; exact hx h1 h2
          · simp [Function.update_of_ne hut]
        rw [e2] at ih
        have h3 : (linsR (CEv.lin u o' r' :: tr)).count (t, o, r) = (linsR tr).count (t, o, r) := by
          show List.count _ ((u, o', r') :: linsR tr) = _
          rw [List.count_cons_of_ne]
          exact hx
        rw [h3]
        simpa [retsR] using ih
    | @ret u o' r' hu =>
      by_cases hx : (u, o', r') = (t, o, r)
      · obtain ⟨rfl, rfl, rfl⟩ := by simpa using hx
        have e1 : doneR st (u, o', r') = 1 := by simp [doneR, hu]
        have e2 : doneR (Function.update st u .idle) (u, o', r') = 0 := by simp [doneR]
        rw [e2] at ih
        rw [e1]
        have h3 : (retsR (CEv.ret u o' r' :: tr)).count (u, o', r') = (retsR tr).count (u, o', r') + 1 := by
          show List.count _ ((u, o', r') :: retsR tr) = _
          rw [List.count_cons_self]
        rw [h3]
        simp only [linsR, List.filterMap_cons] at ih ⊢
        omega
      · have e2 : doneR (Function.update st u .idle) (t, o, r) = doneR st (t, o, r) := by
          unfold doneR
          by_cases hut : t = u
          · subst hut
            simp at hx
            simp [hu]
            intro h1 h2; exact hx h1 h2
          · simp [Function.update_of_ne hut]
        rw [e2] at ih
        have h3 : (retsR (CEv.ret u o' r' :: tr)).count (t, o, r) = (retsR tr).count (t, o, r) := by
          show List.count _ ((u, o', r') :: retsR tr) = _
          rw [List.count_cons_of_ne]
          exact hx
        rw [h3]
        simpa [linsR] using ih

/-- When everybody is idle again, the calls that took effect are the ones that returned, with the same results. -/
theorem Wf.linsR_perm_retsR {tr : List (CEv Op R)} (h : Wf allIdle tr allIdle) : (linsR tr).Perm (retsR tr) := by
  classical
  rw [List.perm_iff_count]
  intro x
  have := h.countsR x
  simpa [doneR, allIdle] using this

end GoMetrics
