import Verif.Lemmas.Ewma

/-! Lemmas about concurrent calls on a moving average. -/

set_option linter.unusedSimpArgs false
set_option linter.unnecessarySeqFocus false
set_option linter.unusedSectionVars false

namespace GoMetrics
open Spec
variable {F : Type} [GoFloat F]

/-- What a goroutine is doing, seen from outside. -/
def TPc.abs : TPc F → TS EwmaCall (EwmaRes F)
  | .start | .lock | .recheck | .setInit | .load _ | .sub _ _ => .pend .tick
  | .loadRate _ c | .storeRate _ c _ | .unlock c | .done c => .done .tick (.took c)

def EPc.abs : EPc F → TS EwmaCall (EwmaRes F)
  | .idle => .idle
  | .upd n => .pend (.update n)
  | .rd => .pend .rate
  | .tick p => p.abs
  | .ret c r => .done c r

theorem tickLocal_abs (p : TPc F) : (tickLocal p).abs = p.abs := by cases p <;> rfl

theorem ewma_step_local (alpha : F) (t : Nat) (i : EwmaCall) (s : EShared F) (l : EPc F) (s' : EShared F) (l' : EPc F)
    (es : List (CEv EwmaCall (EwmaRes F))) (h : (ewmaMachine alpha).step t i s l = some (s', l', es)) :
    LocalEv t l.abs es l'.abs := by
  cases l with
  | idle =>
    simp [ewmaMachine] at h
    obtain ⟨rfl, rfl, rfl⟩ := h
    cases i <;> exact .inv
  | upd n => simp [ewmaMachine] at h; obtain ⟨rfl, rfl, rfl⟩ := h; exact .lin
  | rd => simp [ewmaMachine] at h; obtain ⟨rfl, rfl, rfl⟩ := h; exact .lin
  | ret c r => simp [ewmaMachine] at h; obtain ⟨rfl, rfl, rfl⟩ := h; exact .ret
  | tick p =>
    simp only [ewmaMachine] at h
    cases hp : tickStep alpha s p with
    | none => simp [hp] at h
    | some x =>
      obtain ⟨s1, p'⟩ := x
      simp [hp] at h
      obtain ⟨rfl, rfl, rfl⟩ := h
      rw [tickLocal_abs]
      show LocalEv t p.abs _ p'.abs
      cases p <;> simp [tickStep] at hp <;> try obtain ⟨rfl, rfl⟩ := hp
      · split <;> exact .none
      · obtain ⟨_, rfl, rfl⟩ := hp; exact .none
      · split <;> exact .none
      · exact .none
      · exact .none
      · rename_i m c; cases m <;> exact .lin
      · exact .none
      · rename_i m c r; cases m <;> exact .none
      · exact .none

theorem ewma_wf (alpha : F) {sched s ls tr} (h : (ewmaMachine alpha).run .zero (fun _ => .idle) sched = some (s, ls, tr)) :
    Wf allIdle tr (fun t => (ls t).abs) := by
  have := (ewmaMachine alpha).wf (fun e => some e) EPc.abs (fun _ => True) (fun _ => trivial)
    (fun t i s l s' l' es _ hst => ⟨trivial, by simpa using ewma_step_local alpha t i s l s' l' es hst⟩) sched s ls tr h
  rw [List.filterMap_some] at this
  exact this

/-- The updates that have taken effect. -/
def addedSum (tr : List (CEv EwmaCall (EwmaRes F))) : Int := ((lins tr).map fun x => EwmaCall.events x.2).sum

theorem tookList_append (a b : List (CEv EwmaCall (EwmaRes F))) : tookList (a ++ b) = tookList a ++ tookList b := List.filterMap_append
theorem addedSum_append (a b : List (CEv EwmaCall (EwmaRes F))) : addedSum (a ++ b) = addedSum a + addedSum b := by
  simp [addedSum, lins_append]
theorem ticksReturned_append (a b : List (CEv EwmaCall (EwmaRes F))) : ticksReturned (a ++ b) = ticksReturned a + ticksReturned b :=
  List.countP_append
theorem givenSum_append (a b : List (CEv EwmaCall (EwmaRes F))) : givenSum (a ++ b) = givenSum a + givenSum b := by
  simp [givenSum, invs_append]

def sumInts (cs : List Int64) : Int := (cs.map Int64.toInt).sum

/-- Conservation: at every moment the pending events are those added minus those taken. -/
theorem ewma_conservation (alpha : F) {sched s ls tr}
    (h : (ewmaMachine alpha).run .zero (fun _ => .idle) sched = some (s, ls, tr)) :
    s.uncounted.toInt = wrap64 (addedSum tr - sumInts (tookList tr)) := by
  refine (ewmaMachine alpha).induct (fun s _ tr => s.uncounted.toInt = wrap64 (addedSum tr - sumInts (tookList tr)))
    (by simp [EShared.zero, addedSum, tookList, sumInts, lins, wrap64]) ?_ sched s ls tr h
  intro s ls tr t i s' l' es hi hst
  rw [addedSum_append, tookList_append]
  generalize hl : ls t = l at hst
  cases l with
  | idle =>
    simp [ewmaMachine] at hst
    obtain ⟨rfl, rfl, rfl⟩ := hst
    simpa [addedSum, tookList, lins] using hi
  | upd n =>
    simp [ewmaMachine] at hst
    obtain ⟨rfl, rfl, rfl⟩ := hst
    simp [addedSum, tookList, lins, EwmaCall.events, hi] at *
    simp only [hi, wrap64]
    rw [Int.bmod_add_bmod]
    congr 1; ring
  | rd => simp [ewmaMachine] at hst; obtain ⟨rfl, rfl, rfl⟩ := hst; simpa [addedSum, tookList, lins, EwmaCall.events] using hi
  | ret c r => simp [ewmaMachine] at hst; obtain ⟨rfl, rfl, rfl⟩ := hst; simpa [addedSum, tookList, lins] using hi
  | tick p =>
    simp only [ewmaMachine] at hst
    cases hp : tickStep alpha s p with
    | none => simp [hp] at hst
    | some x =>
      obtain ⟨s1, p'⟩ := x
      simp [hp] at hst
      obtain ⟨rfl, rfl, rfl⟩ := hst
      cases p <;> simp [tickStep] at hp <;> try obtain ⟨rfl, rfl⟩ := hp
      · simpa [addedSum, tookList, lins, tickEvent] using hi
      · obtain ⟨_, rfl, rfl⟩ := hp; simpa [addedSum, tookList, lins, tickEvent] using hi
      · simpa [addedSum, tookList, lins, tickEvent] using hi
      · simpa [addedSum, tookList, lins, tickEvent] using hi
      · simpa [addedSum, tookList, lins, tickEvent] using hi
      · rename_i m c
        simp [addedSum, tookList, lins, tickEvent, EwmaCall.events, sumInts] at *
        simp only [hi, wrap64]
        rw [Int.bmod_add_bmod]
        congr 1; ring
      · simpa [addedSum, tookList, lins, tickEvent] using hi
      · simpa [addedSum, tookList, lins, tickEvent] using hi
      · simpa [addedSum, tookList, lins, tickEvent] using hi

/-- Relation between the shared state, the ticker's position and the counts taken so far, when there is one ticker. -/
def TickInv (alpha : F) (s : EShared F) (cs : List Int64) (returned : Nat) : EPc F → Prop
  | .tick .start => s.rate = foldRate alpha cs ∧ s.init = decide (cs ≠ []) ∧ returned = cs.length
  | .tick .lock => s.rate = foldRate alpha cs ∧ s.init = decide (cs ≠ []) ∧ returned = cs.length
  | .tick .recheck => s.rate = foldRate alpha cs ∧ s.init = decide (cs ≠ []) ∧ returned = cs.length
  | .tick .setInit => cs = [] ∧ s.rate = foldRate alpha cs ∧ returned = cs.length
  | .tick (.load m) => s.rate = foldRate alpha cs ∧ s.init = true ∧ (cs = [] ↔ m = .first) ∧ returned = cs.length
  | .tick (.sub m _) => s.rate = foldRate alpha cs ∧ s.init = true ∧ (cs = [] ↔ m = .first) ∧ returned = cs.length
  | .tick (.loadRate _ c) => ∃ cs', cs = cs' ++ [c] ∧ cs' ≠ [] ∧ s.rate = foldRate alpha cs' ∧ s.init = true ∧ returned = cs'.length
  | .tick (.storeRate _ c r) => ∃ cs', cs = cs' ++ [c] ∧ s.rate = foldRate alpha cs' ∧ r = foldRate alpha cs ∧ s.init = true ∧ returned = cs'.length
  | .tick (.unlock _) => s.rate = foldRate alpha cs ∧ s.init = true ∧ returned + 1 = cs.length
  | .tick (.done _) => s.rate = foldRate alpha cs ∧ s.init = true ∧ returned + 1 = cs.length
  | .ret .tick _ => s.rate = foldRate alpha cs ∧ s.init = true ∧ returned + 1 = cs.length
  | _ => s.rate = foldRate alpha cs ∧ s.init = decide (cs ≠ []) ∧ returned = cs.length

/-- The count taken by a step. -/
def TPc.tookNow : TPc F → List Int64
  | .sub _ c => [c]
  | _ => []

/-- A goroutine that is not in a tick. -/
def EPc.noTick : EPc F → Prop
  | .tick _ => False
  | .ret .tick _ => False
  | _ => True

theorem TickInv.congr {alpha : F} {s s' : EShared F} {cs n l} (h : TickInv alpha s cs n l) (hr : s'.rate = s.rate) (hi : s'.init = s.init) :
    TickInv alpha s' cs n l := by
  cases l with
  | tick p => cases p <;> simpa [TickInv, hr, hi] using h
  | ret c r => cases c <;> simpa [TickInv, hr, hi] using h
  | _ => simpa [TickInv, hr, hi] using h

theorem OnlyTicker.left {T : Nat} {a b : List (CEv EwmaCall (EwmaRes F))} (h : OnlyTicker T (a ++ b)) : OnlyTicker T a :=
  fun t ht => h t (List.mem_append_left _ ht)

theorem ewma_single (alpha : F) (T : Nat) {sched s ls tr}
    (h : (ewmaMachine alpha).run .zero (fun _ => .idle) sched = some (s, ls, tr)) (ho : OnlyTicker T tr) :
    (∀ t, t ≠ T → (ls t).noTick) ∧ TickInv alpha s (tookList tr) (ticksReturned tr) (ls T) := by
  refine (ewmaMachine alpha).induct (fun s ls tr => OnlyTicker T tr →
    (∀ t, t ≠ T → (ls t).noTick) ∧ TickInv alpha s (tookList tr) (ticksReturned tr) (ls T))
    (fun _ => ⟨fun _ _ => by simp [EPc.noTick], by simp [TickInv, EShared.zero, foldRate, tookList, ticksReturned]⟩) ?_ sched s ls tr h ho
  intro s ls tr t i s' l' es hi hst ho
  obtain ⟨h1, h2⟩ := hi (OnlyTicker.left ho)
  by_cases ht : t = T
  · subst ht
    refine ⟨fun u hu => by simpa [Function.update_of_ne hu] using h1 u hu, ?_⟩
    rw [Function.update_self, tookList_append, ticksReturned_append]
    generalize hl : ls t = l at hst h2
    cases l with
    | idle =>
      simp [ewmaMachine] at hst
      obtain ⟨rfl, rfl, rfl⟩ := hst
      cases i <;> simpa [tookList, ticksReturned, TickInv] using h2
    | upd n =>
      simp [ewmaMachine] at hst
      obtain ⟨rfl, rfl, rfl⟩ := hst
      simpa [tookList, ticksReturned, TickInv] using h2
    | rd =>
      simp [ewmaMachine] at hst
      obtain ⟨rfl, rfl, rfl⟩ := hst
      simpa [tookList, ticksReturned, TickInv] using h2
    | ret c r =>
      simp [ewmaMachine] at hst
      obtain ⟨rfl, rfl, rfl⟩ := hst
      cases c
      · simpa [tookList, ticksReturned, TickInv] using h2
      · obtain ⟨e1, e2, e3⟩ := h2
        have h1 : tookList [CEv.ret t EwmaCall.tick r] = [] := rfl
        have h2 : ticksReturned [CEv.ret t EwmaCall.tick r] = 1 := rfl
        rw [h1, h2, List.append_nil]
        have hne : tookList tr ≠ [] := by intro h; rw [h] at e3; simp at e3
        exact ⟨e1, by simp [e2, hne], e3⟩
      · simpa [tookList, ticksReturned, TickInv] using h2
    | tick p =>
      simp only [ewmaMachine] at hst
      cases hp : tickStep alpha s p with
      | none => simp [hp] at hst
      | some x =>
        obtain ⟨s1, p'⟩ := x
        simp [hp] at hst
        obtain ⟨rfl, rfl, rfl⟩ := hst
        have e0 : tookList (tickEvent t p : List (CEv EwmaCall (EwmaRes F))) = TPc.tookNow p := by
          cases p <;> simp [tookList, tickEvent, TPc.tookNow]
        have e1 : ticksReturned (tickEvent t p : List (CEv EwmaCall (EwmaRes F))) = 0 := by
          cases p <;> simp [ticksReturned, tickEvent]
        rw [e0, e1, Nat.add_zero]
        generalize tookList tr = cs at h2 ⊢
        generalize ticksReturned tr = n at h2 ⊢
        cases p <;> simp [tickStep] at hp <;> (try obtain ⟨rfl, rfl⟩ := hp) <;> simp only [TPc.tookNow, List.append_nil]
        · obtain ⟨a1, a2, a3⟩ := h2
          rw [a2]
          by_cases hc : cs = []
          · simp [hc, tickLocal, TickInv, a1, a2, ← a3] at *; exact a3
          · simp [hc, tickLocal, TickInv, a1, a2, a3]
        · obtain ⟨_, rfl, rfl⟩ := hp
          simpa [tickLocal, TickInv] using h2
        · obtain ⟨a1, a2, a3⟩ := h2
          rw [a2]
          by_cases hc : cs = []
          · simp [hc, tickLocal, TickInv, a1] at *; exact a3
          · simp [hc, tickLocal, TickInv, a1, a2, a3]
        · obtain ⟨a1, a2, a3⟩ := h2
          simp [tickLocal, TickInv, a1, a2, a3]
        · obtain ⟨a1, a2, a3, a4⟩ := h2
          simp [tickLocal, TickInv, a1, a2, a3, a4]
        · rename_i m c
          obtain ⟨a1, a2, a3, a4⟩ := h2
          cases m
          · exact ⟨cs, rfl, by simp [a3], a1, a2, a4⟩
          · exact ⟨cs, rfl, by simp [a3], a1, a2, a4⟩
          · have : cs = [] := a3.2 rfl
            subst this
            exact ⟨[], rfl, a1, rfl, a2, a4⟩
        · rename_i m c
          obtain ⟨cs', rfl, b1, b2, b3, b4⟩ := h2
          simp only [tickLocal, TickInv]
          refine ⟨cs', rfl, b2, ?_, b3, b4⟩
          rw [foldRate_snoc _ _ b1, b2]
        · rename_i m c r
          obtain ⟨cs', rfl, b1, b2, b3, b4⟩ := h2
          cases m <;> simp [tickLocal, TickInv, b1, b2, b3, b4]
        · obtain ⟨a1, a2, a3⟩ := h2
          simp [tickLocal, TickInv, a1, a2, a3]
  · refine ⟨fun u hu => ?_, ?_⟩
    · by_cases hut : u = t
      · subst hut
        rw [Function.update_self]
        have h1t := h1 u hu
        generalize hl : ls u = l at hst h1t
        cases l with
        | idle =>
          simp [ewmaMachine] at hst
          obtain ⟨rfl, rfl, rfl⟩ := hst
          cases i with
          | tick => exact absurd (ho u (by simp)) hu
          | _ => trivial
        | upd n => simp [ewmaMachine] at hst; obtain ⟨rfl, rfl, rfl⟩ := hst; trivial
        | rd => simp [ewmaMachine] at hst; obtain ⟨rfl, rfl, rfl⟩ := hst; trivial
        | ret c r => simp [ewmaMachine] at hst; obtain ⟨rfl, rfl, rfl⟩ := hst; trivial
        | tick p => exact absurd h1t (by simp [EPc.noTick])
      · simpa [Function.update_of_ne hut] using h1 u hu
    · rw [Function.update_of_ne (Ne.symm ht), tookList_append, ticksReturned_append]
      have h1t := h1 t ht
      generalize hl : ls t = l at hst h1t
      cases l with
      | idle =>
        simp [ewmaMachine] at hst
        obtain ⟨rfl, rfl, rfl⟩ := hst
        simpa [tookList, ticksReturned] using h2
      | upd n => simp [ewmaMachine] at hst; obtain ⟨rfl, rfl, rfl⟩ := hst
                 have := h2.congr (s' := { s with uncounted := s.uncounted + n }) rfl rfl
                 simpa [tookList, ticksReturned] using this
      | rd => simp [ewmaMachine] at hst; obtain ⟨rfl, rfl, rfl⟩ := hst; simpa [tookList, ticksReturned] using h2
      | ret c r =>
        simp [ewmaMachine] at hst; obtain ⟨rfl, rfl, rfl⟩ := hst
        cases c
        · simpa [tookList, ticksReturned] using h2
        · exact absurd h1t (by simp [EPc.noTick])
        · simpa [tookList, ticksReturned] using h2
      | tick p => exact absurd h1t (by simp [EPc.noTick])

/-! Nonnegative updates, one ticker -/

theorem invs_nonneg {tr : List (CEv EwmaCall (EwmaRes F))} (h : NonnegUpdates tr) : ∀ x ∈ invs tr, 0 ≤ EwmaCall.events x.2 := by
  intro ⟨t, o⟩ hx
  simp only [invs, List.mem_filterMap] at hx
  obtain ⟨e, he, hx⟩ := hx
  cases e <;> simp at hx
  obtain ⟨rfl, rfl⟩ := hx
  rename_i t o
  cases o with
  | update n => exact h _ _ he
  | _ => exact le_rfl

theorem sum_le_of_subperm {α : Type} {f : α → Int} {a b : List α} (h : a.Subperm b) (hb : ∀ x ∈ b, 0 ≤ f x) :
    (a.map f).sum ≤ (b.map f).sum := by
  obtain ⟨c, hc1, hc2⟩ := h
  rw [← (hc1.map f).sum_eq]
  clear hc1
  induction hc2 with
  | slnil => exact le_rfl
  | cons x _ ih =>
    have := ih (fun y hy => hb y (List.mem_cons_of_mem _ hy))
    have := hb x List.mem_cons_self
    simp; omega
  | cons_cons x _ ih =>
    have := ih (fun y hy => hb y (List.mem_cons_of_mem _ hy))
    simp; omega

theorem NonnegUpdates.left {a b : List (CEv EwmaCall (EwmaRes F))} (h : NonnegUpdates (a ++ b)) : NonnegUpdates a :=
  fun t n ht => h t n (List.mem_append_left _ ht)

theorem givenSum_left {a b : List (CEv EwmaCall (EwmaRes F))} (h : NonnegUpdates (a ++ b)) : givenSum a ≤ givenSum (a ++ b) := by
  refine sum_le_of_subperm ?_ (invs_nonneg h)
  rw [invs_append]
  exact (List.sublist_append_left _ _).subperm

theorem addedSum_le {alpha : F} {sched s ls tr} (h : (ewmaMachine alpha).run .zero (fun _ => .idle) sched = some (s, ls, tr))
    (hn : NonnegUpdates tr) : addedSum tr ≤ givenSum tr :=
  sum_le_of_subperm (ewma_wf alpha h).lins_subperm_invs (invs_nonneg hn)

/-- What the ticker has read, if it is between its load and its subtraction. -/
def SubOk (u : Int64) : EPc F → Prop
  | .tick (.sub _ c) => 0 ≤ c.toInt ∧ c.toInt ≤ u.toInt
  | _ => True

theorem toInt_of_nonneg_le {z : Int} (h0 : 0 ≤ z) (h1 : z ≤ maxInt64) : wrap64 z = z := by
  unfold maxInt64 at h1
  unfold wrap64
  rw [Int.bmod_def]; omega

theorem ewma_nonneg (alpha : F) (T : Nat) {sched s ls tr}
    (h : (ewmaMachine alpha).run .zero (fun _ => .idle) sched = some (s, ls, tr)) (ho : OnlyTicker T tr) (hn : NonnegUpdates tr)
    (hm : givenSum tr ≤ maxInt64) :
    s.uncounted.toInt = addedSum tr - sumInts (tookList tr) ∧ 0 ≤ s.uncounted.toInt ∧ (∀ c ∈ tookList tr, 0 ≤ c.toInt) ∧
      SubOk s.uncounted (ls T) := by
  refine (ewmaMachine alpha).induct_reach (fun s ls tr => OnlyTicker T tr → NonnegUpdates tr → givenSum tr ≤ maxInt64 →
    s.uncounted.toInt = addedSum tr - sumInts (tookList tr) ∧ 0 ≤ s.uncounted.toInt ∧ (∀ c ∈ tookList tr, 0 ≤ c.toInt) ∧
      SubOk s.uncounted (ls T))
    (fun _ _ _ => by simp [EShared.zero, addedSum, tookList, sumInts, lins, SubOk]) ?_ sched s ls tr h ho hn hm
  intro s ls tr t i s' l' es ⟨sched, hr⟩ hi hst ho hn hm
  have hle := givenSum_left hn
  obtain ⟨h1, h2, h3, h4⟩ := hi (OnlyTicker.left ho) (NonnegUpdates.left hn) (le_trans hle hm)
  have hnt := (ewma_single alpha T hr (OnlyTicker.left ho)).1
  have hadd' := addedSum_le ((ewmaMachine alpha).run_snoc hr hst) hn
  have hcons := ewma_conservation alpha ((ewmaMachine alpha).run_snoc hr hst)
  rw [addedSum_append] at hadd' hcons ⊢
  rw [tookList_append] at hcons ⊢
  have hs0 : 0 ≤ sumInts (tookList tr) := List.sum_nonneg (by simpa using h3)
  -- the goroutine T itself, if another one moves
  have hT : t ≠ T → Function.update ls t l' T = ls T := fun h => Function.update_of_ne (Ne.symm h) _ _
  generalize hl : ls t = l at hst
  cases l with
  | idle =>
    simp [ewmaMachine] at hst
    obtain ⟨rfl, rfl, rfl⟩ := hst
    refine ⟨by simpa [addedSum, tookList, lins] using h1, h2, by simpa [tookList] using h3, ?_⟩
    by_cases ht : t = T
    · subst ht; rw [Function.update_self]; cases i <;> trivial
    · rw [hT ht]; exact h4
  | upd n =>
    simp [ewmaMachine] at hst
    obtain ⟨rfl, rfl, rfl⟩ := hst
    have hn0 : 0 ≤ n.toInt := by
      have hp : (CEv.lin t (EwmaCall.update n) EwmaRes.unit : CEv EwmaCall (EwmaRes F)) ∈ tr ++ [CEv.lin t (EwmaCall.update n) EwmaRes.unit] := by simp
      have hw := ewma_wf alpha ((ewmaMachine alpha).run_snoc hr (i := i) (t := t) (s' := { s with uncounted := s.uncounted + n })
        (l' := .ret (.update n) .unit) (es := [.lin t (.update n) .unit]) (by rw [hl]; rfl))
      have := hw.lins_subperm_invs.subset (a := (t, EwmaCall.update n)) (by simp [lins])
      exact invs_nonneg hn _ this
    have e1 : addedSum [(CEv.lin t (EwmaCall.update n) EwmaRes.unit : CEv EwmaCall (EwmaRes F))] = n.toInt := by
      simp [addedSum, lins, EwmaCall.events]
    have e2 : tookList [(CEv.lin t (EwmaCall.update n) EwmaRes.unit : CEv EwmaCall (EwmaRes F))] = [] := rfl
    rw [e1] at hadd' hcons ⊢
    rw [e2, List.append_nil] at hcons ⊢
    have e3 : (s.uncounted + n).toInt = addedSum tr + n.toInt - sumInts (tookList tr) := by
      rw [hcons]
      refine toInt_of_nonneg_le ?_ ?_
      · omega
      · exact le_trans (by omega) (le_trans hadd' hm)
    refine ⟨e3, by simp only; omega, h3, ?_⟩
    by_cases ht : t = T
    · subst ht; rw [Function.update_self]; trivial
    · rw [hT ht]
      generalize ls T = lT at h4 ⊢
      cases lT with
      | tick p =>
        cases p with
        | sub m c =>
          obtain ⟨b1, b2⟩ := h4
          exact ⟨b1, by simp only; omega⟩
        | _ => trivial
      | _ => trivial
  | rd =>
    simp [ewmaMachine] at hst; obtain ⟨rfl, rfl, rfl⟩ := hst
    refine ⟨by simpa [addedSum, tookList, lins, EwmaCall.events] using h1, h2, by simpa [tookList] using h3, ?_⟩
    by_cases ht : t = T
    · subst ht; rw [Function.update_self]; trivial
    · rw [hT ht]; exact h4
  | ret c r =>
    simp [ewmaMachine] at hst; obtain ⟨rfl, rfl, rfl⟩ := hst
    refine ⟨by simpa [addedSum, tookList, lins, EwmaCall.events] using h1, h2, by simpa [tookList] using h3, ?_⟩
    by_cases ht : t = T
    · subst ht; rw [Function.update_self]; trivial
    · rw [hT ht]; exact h4
  | tick p =>
    have ht : t = T := by
      by_contra ht
      have := hnt t ht
      rw [hl] at this
      exact this
    subst ht
    rw [Function.update_self]
    rw [hl] at h4
    simp only [ewmaMachine] at hst
    cases hp : tickStep alpha s p with
    | none => simp [hp] at hst
    | some x =>
      obtain ⟨s1, p'⟩ := x
      simp [hp] at hst
      obtain ⟨rfl, rfl, rfl⟩ := hst
      have e0 : tookList (tickEvent t p : List (CEv EwmaCall (EwmaRes F))) = TPc.tookNow p := by
        cases p <;> simp [tookList, tickEvent, TPc.tookNow]
      have e1 : addedSum (tickEvent t p : List (CEv EwmaCall (EwmaRes F))) = 0 := by
        cases p <;> simp [addedSum, tickEvent, lins, EwmaCall.events]
      rw [e0] at hcons ⊢
      rw [e1, add_zero] at hcons ⊢
      cases p <;> simp [tickStep] at hp <;> (try obtain ⟨rfl, rfl⟩ := hp) <;> simp only [TPc.tookNow, List.append_nil] at hcons ⊢
      · refine ⟨h1, h2, h3, ?_⟩; split <;> trivial
      · obtain ⟨_, rfl, rfl⟩ := hp; exact ⟨h1, h2, h3, trivial⟩
      · refine ⟨h1, h2, h3, ?_⟩; split <;> trivial
      · exact ⟨h1, h2, h3, trivial⟩
      · exact ⟨h1, h2, h3, h2, le_rfl⟩
      · rename_i m c
        obtain ⟨b1, b2⟩ := h4
        have e4 : sumInts (tookList tr ++ [c]) = sumInts (tookList tr) + c.toInt := by simp [sumInts]
        rw [e4] at hcons ⊢
        have e3 : (s.uncounted + -c).toInt = addedSum tr - (sumInts (tookList tr) + c.toInt) := by
          rw [hcons]
          refine toInt_of_nonneg_le ?_ ?_
          · omega
          · have hb := Int64.toInt_lt s.uncounted
            unfold maxInt64; omega
        refine ⟨e3, by omega, ?_, ?_⟩
        · intro x hx
          simp at hx
          rcases hx with hx | rfl
          · exact h3 x hx
          · exact b1
        · cases m <;> trivial
      · exact ⟨h1, h2, h3, trivial⟩
      · rename_i m c r; cases m <;> exact ⟨h1, h2, h3, trivial⟩
      · exact ⟨h1, h2, h3, trivial⟩

/-- A reading of the rate while one goroutine ticks. -/
theorem ewma_read (alpha : F) (T : Nat) {sched s ls tr a b t r}
    (h : (ewmaMachine alpha).run .zero (fun _ => .idle) sched = some (s, ls, tr)) (ho : OnlyTicker T tr)
    (he : tr = a ++ CEv.lin t .rate (.rate r) :: b) :
    ∃ cs, cs <+: tookList a ∧ ticksReturned a ≤ cs.length ∧ r = GoFloat.mul (foldRate alpha cs) (GoFloat.lit (10 ^ 9)) := by
  obtain ⟨s1, ls1, tr1, sched1, u, i, s2, l2, es1, es2, hr, hst, ha⟩ := (ewmaMachine alpha).cut h he
  have hes : es1 = [] ∧ es2 = [] ∧ ls1 u = .rd ∧ u = t ∧ r = GoFloat.mul s1.rate (GoFloat.lit (10 ^ 9)) := by
    generalize hl : ls1 u = l at hst
    cases l with
    | idle =>
      simp [ewmaMachine] at hst
      obtain ⟨-, -, h3⟩ := hst
      rcases es1 with _ | ⟨x, es1⟩ <;> simp at h3
    | upd n =>
      simp [ewmaMachine] at hst
      obtain ⟨-, -, h3⟩ := hst
      rcases es1 with _ | ⟨x, es1⟩ <;> simp at h3
    | rd =>
      simp [ewmaMachine] at hst
      obtain ⟨-, -, h3⟩ := hst
      rcases es1 with _ | ⟨x, es1⟩ <;> simp at h3
      obtain ⟨⟨rfl, h4⟩, rfl⟩ := h3
      simp [h4]
    | ret c r =>
      simp [ewmaMachine] at hst
      obtain ⟨-, -, h3⟩ := hst
      rcases es1 with _ | ⟨x, es1⟩ <;> simp at h3
    | tick p =>
      simp only [ewmaMachine] at hst
      cases hp : tickStep alpha s1 p with
      | none => simp [hp] at hst
      | some x =>
        simp [hp] at hst
        obtain ⟨-, -, h3⟩ := hst
        cases p <;> simp [tickEvent] at h3
        rcases es1 with _ | ⟨x, es1⟩ <;> simp at h3
  obtain ⟨rfl, rfl, h1, rfl, h3⟩ := hes
  rw [List.append_nil] at ha
  subst ha
  have hi := (ewma_single alpha T hr (by rw [he] at ho; exact OnlyTicker.left ho)).2
  rw [h3]
  generalize ls1 T = lT at hi
  generalize tookList a = cs at *
  generalize ticksReturned a = n at *
  have full : s1.rate = foldRate alpha cs → n ≤ cs.length →
      ∃ cs', cs' <+: cs ∧ n ≤ cs'.length ∧ GoFloat.mul s1.rate (GoFloat.lit (10 ^ 9)) = GoFloat.mul (foldRate alpha cs') (GoFloat.lit (10 ^ 9)) :=
    fun h1 h2 => ⟨cs, List.prefix_rfl, h2, by rw [h1]⟩
  cases lT with
  | tick p =>
    cases p with
    | start => exact full hi.1 hi.2.2.le
    | lock => exact full hi.1 hi.2.2.le
    | recheck => exact full hi.1 hi.2.2.le
    | setInit => exact full hi.2.1 hi.2.2.le
    | load m => exact full hi.1 hi.2.2.2.le
    | sub m c => exact full hi.1 hi.2.2.2.le
    | loadRate m c =>
      obtain ⟨cs', rfl, -, h5, -, h6⟩ := hi
      exact ⟨cs', List.prefix_append _ _, h6.le, by rw [h5]⟩
    | storeRate m c r =>
      obtain ⟨cs', rfl, h5, -, -, h6⟩ := hi
      exact ⟨cs', List.prefix_append _ _, h6.le, by rw [h5]⟩
    | unlock c => obtain ⟨e1, e2, e3⟩ := hi; exact full e1 (by omega)
    | done c => obtain ⟨e1, e2, e3⟩ := hi; exact full e1 (by omega)
  | ret c r =>
    cases c with
    | tick => obtain ⟨e1, e2, e3⟩ := hi; exact full e1 (by omega)
    | _ => exact full hi.1 hi.2.2.le
  | _ => exact full hi.1 hi.2.2.le

end GoMetrics
