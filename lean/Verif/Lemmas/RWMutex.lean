import Verif.Go.RWMutex
import Mathlib.Logic.Function.Basic
import Mathlib.Tactic.SplitIfs
import Mathlib.Tactic.Tauto

/-! The lock is what the goroutines think they hold. -/

namespace GoMetrics

/-- What a goroutine has of the lock: nothing, the read lock, an announced `Lock()`, the write lock. -/
inductive Hold where
  | no
  | read
  | pend
  | write
  deriving DecidableEq

namespace RWMutex

structure Inv (m : RWMutex) (h : Nat → Hold) : Prop where
  w : ∀ u, h u = .write ↔ m.writer = some u
  p : ∀ u, h u = .pend ↔ m.pending = some u
  r : ∀ u, m.readers.count u = if h u = .read then 1 else 0
  wr : m.writer ≠ none → m.readers = []
  wp : m.writer ≠ none → m.pending = none

/-- One operation of goroutine `t`. -/
inductive Trans (t : Nat) : RWMutex → Hold → RWMutex → Hold → Prop where
  | none {m a} : Trans t m a m a
  | rlock {m m'} : m.rlock t = some m' → Trans t m .no m' .read
  | runlock {m} : Trans t m .read (m.runlock t) .no
  | announce {m m'} : m.announce t = some m' → Trans t m .no m' .pend
  | acquire {m m'} : m.acquire t = some m' → Trans t m .pend m' .write
  | unlock {m} : Trans t m .write m.unlock .no

theorem Inv.free {h : Nat → Hold} (hh : ∀ u, h u = .no) : Inv free h :=
  ⟨fun u => by simp [hh, RWMutex.free], fun u => by simp [hh, RWMutex.free], fun u => by simp [hh, RWMutex.free], fun _ => rfl, fun _ => rfl⟩

theorem Inv.trans {m m' : RWMutex} {h : Nat → Hold} {t : Nat} {b : Hold} (hi : Inv m h) (ht : Trans t m (h t) m' b) :
    Inv m' (Function.update h t b) := by
  generalize ha : h t = a at ht
  cases ht with
  | none => rw [show Function.update h t b = h by rw [← ha]; exact Function.update_eq_self t h]; exact hi
  | rlock hr =>
    simp only [RWMutex.rlock] at hr
    split_ifs at hr with hc
    simp only [Option.some.injEq] at hr
    subst hr
    refine ⟨fun u => ?_, fun u => ?_, fun u => ?_, fun hw => absurd hc.1 hw, fun _ => hc.2⟩
    · rcases eq_or_ne u t with rfl | hne
      · simp [hc.1]
      · rw [Function.update_of_ne hne]; exact hi.w u
    · rcases eq_or_ne u t with rfl | hne
      · simp [hc.2]
      · rw [Function.update_of_ne hne]; exact hi.p u
    · rcases eq_or_ne u t with rfl | hne
      · simp [hi.r, ha]
      · rw [Function.update_of_ne hne, ← hi.r u, List.count_cons_of_ne (Ne.symm hne)]
  | runlock =>
    refine ⟨fun u => ?_, fun u => ?_, fun u => ?_, fun hw => ?_, fun hw => hi.wp hw⟩
    · rcases eq_or_ne u t with rfl | hne
      · simp only [Function.update_self]
        have := hi.w u
        rw [ha] at this
        exact ⟨fun h => by simp at h, fun h => by simpa using this.2 h⟩
      · rw [Function.update_of_ne hne]; exact hi.w u
    · rcases eq_or_ne u t with rfl | hne
      · simp only [Function.update_self]
        have := hi.p u
        rw [ha] at this
        exact ⟨fun h => by simp at h, fun h => by simpa using this.2 h⟩
      · rw [Function.update_of_ne hne]; exact hi.p u
    · rcases eq_or_ne u t with rfl | hne
      · simp [RWMutex.runlock, hi.r, ha]
      · rw [Function.update_of_ne hne, ← hi.r u]
        simp only [RWMutex.runlock]
        exact List.count_erase_of_ne hne
    · simp [RWMutex.runlock, hi.wr hw]
  | announce hr =>
    simp only [RWMutex.announce] at hr
    split_ifs at hr with hc
    simp only [Option.some.injEq] at hr
    subst hr
    refine ⟨fun u => ?_, fun u => ?_, fun u => ?_, fun hw => absurd hc.1 hw, fun hw => absurd hc.1 hw⟩
    · rcases eq_or_ne u t with rfl | hne
      · simp [hc.1]
      · rw [Function.update_of_ne hne]; exact hi.w u
    · rcases eq_or_ne u t with rfl | hne
      · simp
      · rw [Function.update_of_ne hne]
        have := hi.p u
        rw [hc.2] at this
        simp only [Option.some.injEq]
        exact ⟨fun h => by simpa using this.1 h, fun h => absurd h.symm hne⟩
    · rcases eq_or_ne u t with rfl | hne
      · simp [hi.r, ha]
      · rw [Function.update_of_ne hne]; exact hi.r u
  | acquire hr =>
    simp only [RWMutex.acquire] at hr
    split_ifs at hr with hc
    simp only [Option.some.injEq] at hr
    subst hr
    have hw : m.writer = none := by
      rcases hw : m.writer with _ | u
      · rfl
      · have := hi.wp (by simp [hw])
        rw [hc.1] at this
        simp at this
    refine ⟨fun u => ?_, fun u => ?_, fun u => ?_, fun _ => hc.2, fun _ => rfl⟩
    · rcases eq_or_ne u t with rfl | hne
      · simp
      · rw [Function.update_of_ne hne]
        have := hi.w u
        rw [hw] at this
        simp only [Option.some.injEq]
        exact ⟨fun h => by simpa using this.1 h, fun h => absurd h.symm hne⟩
    · rcases eq_or_ne u t with rfl | hne
      · simp
      · rw [Function.update_of_ne hne]
        have := hi.p u
        rw [hc.1] at this
        refine ⟨fun h => absurd (by simpa using this.1 h) (Ne.symm hne), fun h => by simp at h⟩
    · rcases eq_or_ne u t with rfl | hne
      · simp [hi.r, ha]
      · rw [Function.update_of_ne hne]; exact hi.r u
  | unlock =>
    have hw : m.writer = some t := (hi.w t).1 ha
    refine ⟨fun u => ?_, fun u => ?_, fun u => ?_, fun hw => absurd rfl hw, fun hw => absurd rfl hw⟩
    · rcases eq_or_ne u t with rfl | hne
      · simp [RWMutex.unlock]
      · rw [Function.update_of_ne hne]
        have := hi.w u
        rw [hw] at this
        simp only [RWMutex.unlock]
        refine ⟨fun h => absurd (by simpa using this.1 h) (Ne.symm hne), fun h => by simp at h⟩
    · rcases eq_or_ne u t with rfl | hne
      · simp only [Function.update_self]
        have := hi.p u
        rw [ha] at this
        exact ⟨fun h => by simp at h, fun h => by simpa using this.2 h⟩
      · rw [Function.update_of_ne hne]; exact hi.p u
    · rcases eq_or_ne u t with rfl | hne
      · simp [RWMutex.unlock, hi.r, ha]
      · rw [Function.update_of_ne hne]; exact hi.r u

/-- Mutual exclusion. -/
theorem Inv.excl {m : RWMutex} {h : Nat → Hold} (hi : Inv m h) {t u : Nat} (ht : h t = .write) (hu : h u = .write ∨ h u = .read) : u = t := by
  have hw := (hi.w t).1 ht
  rcases hu with hu | hu
  · have := (hi.w u).1 hu
    rw [hw] at this
    simpa using this.symm
  · have := hi.r u
    rw [hi.wr (by simp [hw]), if_pos hu] at this
    simp at this

end RWMutex

end GoMetrics
