import Verif.Spec.Together
import Verif.Lemmas.Ledger
import Verif.Lemmas.Recorded
import Verif.Lemmas.Conc
import Verif.Props.RegistryProgram

/-! Lemmas for C128: the state after all goroutines have finished. -/

set_option linter.unusedSectionVars false

namespace GoMetrics.Together
open Spec

section
variable {Op R : Type}

/-- The call that a goroutine is in. -/
def busyOf : TS Op R → Option Op
  | .idle => none
  | .pend o => some o
  | .done o _ => some o

theorem busy_of {st st' : Nat → TS Op R} {tr : List (CEv Op R)} (h : Wf st tr st') : busyAfter (fun t => busyOf (st t)) (hist tr) = fun t => busyOf (st' t) := by
  induction h with
  | nil => rfl
  | @cons st st1 st2 e tr hs _ ih =>
    rw [← ih]
    cases hs with
    | @inv t o ht =>
      simp only [hist, List.filterMap_cons, busyAfter]
      congr 1
      funext u
      by_cases hu : u = t
      · subst hu; simp [busyOf]
      · simp [Function.update_of_ne hu]
    | @lin t o r ht =>
      simp only [hist, List.filterMap_cons]
      congr 1
      funext u
      by_cases hu : u = t
      · subst hu; simp [busyOf, ht]
      · simp [Function.update_of_ne hu]
    | @ret t o r ht =>
      simp only [hist, List.filterMap_cons, busyAfter]
      congr 1
      funext u
      by_cases hu : u = t
      · subst hu; simp [busyOf]
      · simp [Function.update_of_ne hu]

theorem idle_of {st : Nat → TS Op R} {tr : List (CEv Op R)} (h : Wf allIdle tr st) (hf : Finished (hist tr)) : st = allIdle := by
  have := busy_of h
  funext t
  have h1 := congrFun this t
  have h2 : busyAfter (fun t => busyOf ((allIdle : Nat → TS Op R) t)) (hist tr) t = none := hf t
  rw [h2] at h1
  cases h3 : st t with
  | idle => rfl
  | _ => rw [h3] at h1; cases h1

end

section
variable {F : Type} [GoFloat F] [GoSqrt F] [GoExp F]

/-- The operation of the one-at-a-time model. -/
def asOp : ProgOp F → Option (Op F)
  | .call r c => some (.call r c)
  | .reg g o => some (.reg g o)
  | .each _ => none

theorem callsMade_eq (tr : List (CEv (ProgOp F) (ProgSeen F))) : callsMade (hist tr) = ((invs tr).map Prod.snd).filterMap asOp := by
  induction tr with
  | nil => rfl
  | cons e tr ih =>
    cases e with
    | inv t o => cases o <;> simpa [hist, invs, callsMade, asOp, List.filterMap_cons] using ih
    | lin t o r => simpa [hist, invs] using ih
    | ret t o r => simpa [hist, invs, callsMade] using ih

/-- When all have finished, calls made one after the other find what the calls made before, in some order, have left. -/
theorem final_all {w : World F} {h : List (HEv (ProgOp F) (ProgSeen F))} {l : List (Nat × ProgOp F × ProgSeen F)} (hl : Linearizable ProgCall w (h ++ oneByOne l)) (hf : Finished h) :
    ∃ (ops : List (Env F × Op F)) (w' : World F), (ops.map Prod.snd).Perm (callsMade h) ∧ LegalRun ProgCall (w.run ops) (l.map Prod.snd) w' := by
  classical
  obtain ⟨tr, st, s', hh, hw, hr⟩ := hl
  obtain ⟨tr1, tr2, rfl, h1, h2⟩ := List.filterMap_eq_append_iff.1 hh
  change hist tr1 = h at h1
  subst h1
  obtain ⟨st1, w1, w2⟩ := hw.split
  have he : st1 = allIdle := idle_of w1 hf
  subst he
  rw [linSeq_append] at hr
  obtain ⟨s1, r1, r2⟩ := hr.split
  obtain ⟨ops, rfl, h3⟩ := C103_history r1
  obtain ⟨w', h4⟩ := (oneByOne_legal ProgCall _ l).1 ⟨tr2, st, s', h2, w2, r2⟩
  refine ⟨ops, w', ?_, h4⟩
  rw [h3, callsMade_eq]
  have : (linSeq tr1).filterMap (fun x => match x.1 with | .call r c => some (.call r c) | .reg g o => some (.reg g o) | .each _ => none) = ((linSeq tr1).map Prod.fst).filterMap asOp := by
    rw [List.filterMap_map]
    congr 1
  refine .trans (.of_eq this) ?_
  rw [linSeq_map_fst]
  exact (w1.lins_perm_invs.map _).filterMap _

/-- The case of one call. -/
theorem final {w : World F} {h : List (HEv (ProgOp F) (ProgSeen F))} {t : Nat} {o : ProgOp F} {x : ProgSeen F} (hl : Linearizable ProgCall w (h ++ [.inv t o, .ret t o x])) (hf : Finished h) :
    ∃ (ops : List (Env F × Op F)) (w' : World F), (ops.map Prod.snd).Perm (callsMade h) ∧ ProgCall (w.run ops) o x w' := by
  obtain ⟨ops, w', h1, h2⟩ := final_all (l := [(t, o, x)]) hl hf
  cases h2 with
  | cons h3 _ => exact ⟨ops, _, h1, h3⟩

/-- What an operation adds to the counter `r`. -/
def delta (r : Ref) : Op F → Int
  | .call x (.inc i) => if x = r then i.toInt else 0
  | .call x (.dec i) => if x = r then -i.toInt else 0
  | _ => 0

theorem tally_add (r : Ref) (n : Int) (l : List (Env F × Op F)) (h : Op.call r .clear ∉ l.map Prod.snd) : l.foldl (fun n e => tallyAfter r n e.2) n = n + ((l.map Prod.snd).map (delta r)).sum := by
  induction l generalizing n with
  | nil => simp
  | cons e l ih =>
    simp only [List.map_cons, List.mem_cons, not_or] at h
    rw [List.foldl_cons, ih _ h.2]
    have : tallyAfter r n e.2 = n + delta r e.2 := by
      obtain ⟨env, o⟩ := e
      have h1 : Op.call r .clear ≠ o := h.1
      show tallyAfter r n o = n + delta r o
      unfold tallyAfter delta
      split
      · split_ifs <;> simp_all
      · split_ifs <;> simp_all; omega
      · split_ifs with hx
        · subst hx; exact absurd rfl h1
        · simp
      · split <;> simp_all
    rw [this]
    simp [Int.add_assoc]

theorem added_eq (r : Ref) (h : List (HEv (ProgOp F) (ProgSeen F))) : added r h = ((callsMade h).map (delta r)).sum := by
  induction h with
  | nil => rfl
  | cons e h ih =>
    cases e with
    | ret t o x => simpa [added, callsMade] using ih
    | inv t o =>
      cases o with
      | call x c => cases c <;> simp [added, callsMade, delta, ih]
      | reg g o => simp [added, callsMade, delta, ih]
      | each g => simp [added, callsMade, ih]

/-! ### Samples -/

theorem live_records {w : World F} {x : Ref} {o : Obj F} {k : LiveKind} (ho : w.objs x = some o) (hl : o.live = some k) :
    recordsIn w x = if k = .uniform ∨ k = .exp then some x else none := by
  unfold recordsIn
  rw [ho]
  cases o with
  | counter z => cases z <;> cases hl <;> rfl
  | gauge z => cases z <;> cases hl <;> rfl
  | gaugeF z => cases z <;> cases hl <;> rfl
  | health z => cases z <;> cases hl <;> rfl
  | sample z => cases z <;> cases hl <;> rfl
  | ewma z => cases z <;> cases hl <;> rfl
  | meter z =>
    cases z with
    | std m =>
      simp only [Obj.live] at hl
      split at hl <;> cases hl
      rfl
    | _ => cases hl
  | hist z => cases hl
  | timer z => cases hl

theorem sample_or_hist {w : World F} {x s : Ref} {q : Obj F} (hq : w.objs x = some q) (ht : q.ty ≠ .timer) (h : recordsIn w x = some s) : (∃ y, q = .sample y) ∨ ∃ y, q = .hist y := by
  unfold recordsIn at h
  rw [hq] at h
  cases q with
  | sample y => exact .inl ⟨y, rfl⟩
  | hist y => exact .inr ⟨y, rfl⟩
  | timer y => exact absurd rfl ht
  | _ => cases h

/-- The value that a call records. -/
def updated : Call F → Option Int64
  | .update v => some v
  | _ => none

theorem entry_sample {env : Env F} {o : Obj F} (ho : (∃ y, o = .sample y) ∨ ∃ y, o = .hist y) {c : Call F} (hc : c ≠ .clear) (g : List Int64) :
    entry env (some o) c g = g ++ (updated c).toList := by
  rcases ho with ⟨y, rfl⟩ | ⟨y, rfl⟩ <;> cases c <;> first | rfl | exact (List.append_nil _).symm | exact absurd rfl hc

/-- Which sample an object records in does not change. -/
theorem recordsIn_le {w w' : World F} (hw : w.Ok) (h : w.Leq w') {x : Ref} (hx : w.objs x ≠ none) : recordsIn w' x = recordsIn w x := by
  cases ho : w.objs x with
  | none => exact absurd ho hx
  | some o =>
    cases hl : o.live with
    | none =>
      have h1 := h.frozen x o ho hl
      unfold recordsIn
      rw [ho, h1]
      cases o with
      | timer z =>
        cases z with
        | std a m =>
          obtain ⟨q, h2, h3⟩ := (hw.refs x _ ho).1
          have h4 : q.live = none := by cases q <;> simp_all [Obj.ty, Obj.live]
          simp only [h2, h.frozen a q h2 h4]
        | _ => rfl
      | hist z => cases z <;> rfl
      | _ => rfl
    | some k =>
      obtain ⟨o', h1, h2⟩ := h.live x o k ho hl
      rw [live_records ho hl]
      rcases h2 with h2 | ⟨rfl, h2, -⟩
      · exact live_records h1 h2
      · unfold recordsIn
        rw [h1]
        cases o' with
        | meter z => rfl
        | _ => exact h2.elim

/-- The object exists and is no timer. -/
def Direct (w : World F) (x : Ref) : Prop := ∃ o, w.objs x = some o ∧ o.ty ≠ .timer

theorem Direct.le {w w' : World F} (h : w.Leq w') {x : Ref} (hx : Direct w x) : Direct w' x := by
  obtain ⟨o, ho, ht⟩ := hx
  cases hl : o.live with
  | none => exact ⟨o, h.frozen x o ho hl, ht⟩
  | some k =>
    obtain ⟨o', h1, h2⟩ := h.live x o k ho hl
    refine ⟨o', h1, ?_⟩
    rcases h2 with h2 | ⟨-, h2, -⟩
    · cases o' <;> simp_all [Obj.live, Obj.ty]
    · cases o' <;> simp_all [Obj.stoppedMeter, Obj.ty]

open Classical in
/-- The value that an operation records in `s`. -/
noncomputable def value (w : World F) (s : Ref) : Op F → Option Int64
  | .call x c => if recordsIn w x = some s then updated c else none
  | _ => none

theorem book_add {w0 w : World F} (hw0 : w0.Ok) (hw : w.Ok) (hle : w0.Leq w) (s : Ref) (g : List Int64) (l : List (Env F × Op F)) (hd : ∀ x c, Op.call x c ∈ l.map Prod.snd → Direct w0 x)
    (hc : ∀ x, Op.call x .clear ∈ l.map Prod.snd → recordsIn w0 x ≠ some s) : book w s g l = g ++ (l.map Prod.snd).filterMap (value w0 s) := by
  induction l generalizing w g with
  | nil => simp [book]
  | cons e l ih =>
    obtain ⟨env, o⟩ := e
    have hs := hw.step env o
    rw [book, ih hs.1 (World.Le.trans hle hs.2) _ (fun x c h => hd x c (List.mem_cons_of_mem _ h)) fun x h => hc x (List.mem_cons_of_mem _ h)]
    have : bookAfter w s g env o = g ++ (value w0 s o).toList := by
      cases o with
      | call x c =>
        obtain ⟨q, hq, ht⟩ := (hd x c (by simp)).le hle
        obtain ⟨q0, hq0, -⟩ := hd x c (by simp)
        have hr := recordsIn_le hw0 hle (x := x) (by rw [hq0]; simp)
        by_cases h1 : recordsIn w x = some s
        · have h0 := hr ▸ h1
          simp only [bookAfter, if_pos h1]
          have hk := sample_or_hist hq ht h1
          rw [hq]
          have hcl : c ≠ .clear := by rintro rfl; exact hc x (by simp) h0
          rw [entry_sample hk hcl]
          simp only [value, if_pos h0]
        · have h0 : recordsIn w0 x ≠ some s := hr ▸ h1
          simp only [bookAfter, if_neg h1, value, if_neg h0, Option.toList_none, List.append_nil]
      | _ => exact (List.append_nil _).symm
    rw [this]
    cases hv : value w0 s o <;> simp [hv]

theorem recordedBy_eq (w : World F) (s : Ref) (h : List (HEv (ProgOp F) (ProgSeen F))) : recordedBy w s h = (callsMade h).filterMap (value w s) := by
  induction h with
  | nil => rfl
  | cons e h ih =>
    cases e with
    | ret t o x => simpa [recordedBy, callsMade] using ih
    | inv t o =>
      cases o with
      | call x c => cases c <;> simp only [recordedBy, callsMade, value, ih, List.filterMap_cons] <;> split_ifs <;> rfl
      | reg g o => simp [recordedBy, callsMade, value, ih, List.filterMap_cons]
      | each g => simp [recordedBy, callsMade, ih]

/-- Only objects that exist, and no timers, are used in a `RegProgramHistory`. -/
theorem direct {sorter : Nat → MemProg Unit} {w : World F} {h : List (HEv (ProgOp F) (ProgSeen F))} (hp : RegProgramHistory sorter w h) {e : HEv (ProgOp F) (ProgSeen F)} (he : e ∈ h) {x : Ref} {c : Call F}
    (ho : evOp e = .call x c) : Direct w x := by
  obtain ⟨hk, h1, h2⟩ := hp.object (usedBy w (x, c))
  have hmem : e ∈ part (worksOn w) (.inl (usedBy w (x, c))) h := by
    unfold part
    rw [List.mem_filter]
    exact ⟨he, by rw [ho]; simp [worksOn]⟩
  have hne : hk ≠ [] := by
    rintro rfl
    rw [List.eq_nil_of_length_eq_zero h1.length_eq] at hmem
    cases hmem
  by_contra hn
  have hu : usedBy w (x, c) = x := by
    unfold usedBy
    split
    · rename_i s hs
      exact absurd ⟨_, hs, by simp [Obj.ty]⟩ hn
    · rfl
  rw [hu] at h2
  cases ho : w.objs x with
  | none => rw [ho] at h2; exact hne h2
  | some o =>
    cases o with
    | timer z => rw [ho] at h2; exact hne h2
    | _ => exact hn ⟨_, ho, by simp [Obj.ty]⟩

theorem mem_callsMade {h : List (HEv (ProgOp F) (ProgSeen F))} {x : Ref} {c : Call F} (hm : Op.call x c ∈ callsMade h) : ∃ t, HEv.inv t (.call x c) ∈ h := by
  induction h with
  | nil => cases hm
  | cons e h ih =>
    cases e with
    | ret t o r =>
      obtain ⟨t, h1⟩ := ih hm
      exact ⟨t, .tail _ h1⟩
    | inv t o =>
      cases o with
      | call y d =>
        rcases List.mem_cons.1 hm with h1 | h1
        · cases h1; exact ⟨t, .head _⟩
        · obtain ⟨t, h2⟩ := ih h1
          exact ⟨t, .tail _ h2⟩
      | reg g o =>
        rcases List.mem_cons.1 hm with h1 | h1
        · cases h1
        · obtain ⟨t, h2⟩ := ih h1
          exact ⟨t, .tail _ h2⟩
      | each g =>
        obtain ⟨t, h1⟩ := ih hm
        exact ⟨t, .tail _ h1⟩

end

end GoMetrics.Together
