import Verif.Spec.Locks
import Verif.Lemmas.Locks

/-! C55, C72: which calls can block each other for ever. -/

namespace GoMetrics
open Spec

/-- Programs whose callbacks under a registry lock use only registries with smaller numbers. -/
private theorem ordered {ok : Nat → Nat → Prop} (hok : ∀ j id, ok j id → id < j) : NoDeadlock (UserProg ok none) := by
  rintro s ls ⟨sched, tr, hp, hr⟩
  have go : ∀ sched s ls tr, (∀ x ∈ sched, ∀ p ∈ x.2, UserProg ok none p) →
      lockMachine.run (fun _ => .free) (fun _ => .idle) sched = some (s, ls, tr) → CanGoOn s ls := by
    intro sched s ls tr hp hr
    obtain ⟨Hs, hi⟩ := lock_inv (fun x hx p h => (hp x hx p h).disc hok) hr
    by_cases hb : ∀ t, (ls t).todo = []
    · exact .inr ⟨hb, hi.all_free hb⟩
    · simp only [not_forall] at hb
      obtain ⟨t, ht⟩ := hb
      obtain ⟨u, x, -, hx⟩ := hi.progress ht
      refine .inl ⟨u, ?_⟩
      simp only [lockMachine]
      rw [hx]
      simp
  refine ⟨go _ _ _ _ hp hr, ?_⟩
  obtain ⟨n, hn⟩ := lock_finite hr
  refine ⟨∑ t ∈ Finset.range n, (ls t).size, fun sched' s' ls' tr' hno hr' => ⟨?_, ?_⟩⟩
  · have := (lock_bound sched' hno hr' n hn).1
    omega
  · refine go (sched ++ sched') s' ls' (tr ++ tr') ?_ ?_
    · intro x hx p h
      rcases List.mem_append.1 hx with hx | hx
      · exact hp x hx p h
      · rw [hno x hx] at h
        simp at h
    · rw [Machine.run_append, hr]
      simp [hr']

/-- **C72**: any number of goroutines doing any sequences of calls on registries, meters, timers, samples, the ticking goroutine's ticks, expvar requests
and the registration of the runtime metrics: no deadlock. (Functions called under the lock of a registry use metrics but not registries.) -/
theorem C72_no_deadlock : NoDeadlock (UserProg (fun _ _ => False) none) := ordered fun _ _ h => h.elim

/-- **C55** (part): the same if callbacks of `Each` use any registry in any way, and healthcheck functions and lazy constructors called
under the lock of registry number `j` use registries with smaller numbers (not the registry itself, and no two registries each other's). -/
theorem C55_ordered_partial : NoDeadlock (UserProg (fun j id => id < j) none) := ordered fun _ _ h => h

/-- The programs are not few: `Each` whose callback registers, unregisters and updates a timer; a healthcheck function of registry 5 reading registry 3. -/
example : UserProg (fun j id => id < j) none
    (reading (.registry 0) [] ++ (locking (.registry 0) [] ++ (locking (.registry 0) (locking .arbiter []) ++ locking (.timer 7) (locking (.sample 8) [])))) :=
  .append (.read 0 (by simp)) (.append (.register 0 (by simp)) (.append (.unregister 0 1 (by simp)) (.metric (.timer 7 (some 8)))))
example : UserProg (fun j id => id < j) none (reading (.registry 5) (reading (.registry 3) [])) :=
  .runHealthchecks 5 (by simp) (.read 3 (by simp))
/-- A reachable state in which somebody has to wait: 0 is in `Unregister`, 1 at `Get`, and 2 has announced `NewMeter` while 0 is about to stop a meter. -/
example : ∃ s ls tr, lockMachine.run (fun _ => .free) (fun _ => .idle)
      [(0, some (locking (.registry 0) (locking .arbiter []))), (1, some (reading (.registry 0) [])), (2, some (locking .arbiter [])), (0, none), (0, none),
       (2, none)] = some (s, ls, tr) ∧
    lockMachine.step 0 none s (ls 0) = none ∧ lockMachine.step 1 none s (ls 1) = none ∧ lockMachine.step 2 none s (ls 2) ≠ none :=
  ⟨_, _, _, rfl, by decide +kernel, by decide +kernel, by decide +kernel⟩

/-! ### C55 fails for functions called under the lock that use the same registry. -/

private theorem stuck_of_inv {s ls t} (Inv : (LockId → RWMutex) → (Nat → LockLocal) → Prop) (h0 : Inv s ls)
    (hs : ∀ s ls u i s' x es, Inv s ls → lockStep u i s (ls u) = some (s', x, es) → Inv s' (Function.update ls u x))
    (hb : ∀ s ls, Inv s ls → (ls t).todo ≠ []) : StuckForever s ls t := by
  intro sched s' ls' tr hr
  exact hb s' ls' (lockMachine.induct (fun s ls _ => Inv s ls) h0 (fun s ls tr u i s' x es hi hst => hs s ls u i s' x es hi hst) sched s' ls' tr hr)

/-- A goroutine that waits for the write lock while it holds the read lock. -/
private theorem stuck_write {l : LockId} {p s ls t} (h1 : t ∈ (s l).readers) (h2 : ls t = ⟨.lock l :: p, true⟩) : StuckForever s ls t := by
  refine stuck_of_inv (fun s ls => t ∈ (s l).readers ∧ ls t = ⟨.lock l :: p, true⟩) ⟨h1, h2⟩ ?_ (fun s ls h => by simp [h.2])
  rintro s ls u i s' x es ⟨hr, hl⟩ hst
  rcases eq_or_ne u t with rfl | hne
  · rw [hl] at hst
    cases i with
    | some q => simp [lockStep] at hst
    | none =>
      simp only [lockStep, if_true, Option.map_eq_some_iff, RWMutex.acquire] at hst
      obtain ⟨m, hm, -⟩ := hst
      split_ifs at hm with hc
      rw [hc.2] at hr
      simp at hr
  · refine ⟨?_, by rw [Function.update_of_ne (Ne.symm hne)]; exact hl⟩
    generalize ls u = y at hst
    obtain ⟨todo, ann⟩ := y
    have keep : ∀ l' m, (l' = l → t ∈ m.readers) → t ∈ (Function.update s l' m l).readers := by
      intro l' m h
      rcases eq_or_ne l l' with rfl | hl'
      · simpa using h rfl
      · rw [Function.update_of_ne hl']; exact hr
    cases i with
    | some q =>
      cases todo <;> simp [lockStep] at hst
      rw [← hst.1]; exact hr
    | none =>
      cases todo with
      | nil => simp [lockStep] at hst
      | cons o q =>
        cases o with
        | rlock l' =>
          simp only [lockStep, Option.map_eq_some_iff, RWMutex.rlock] at hst
          obtain ⟨m, hm, hst⟩ := hst
          split_ifs at hm
          simp at hm hst
          rw [← hst.1, ← hm]
          exact keep _ _ fun h => by subst h; simp [hr]
        | runlock l' =>
          simp only [lockStep] at hst
          split_ifs at hst
          simp at hst
          rw [← hst.1]
          exact keep _ _ fun h => by subst h; simpa [RWMutex.runlock] using (List.mem_erase_of_ne (Ne.symm hne)).2 hr
        | lock l' =>
          cases ann
          · simp only [lockStep, Bool.false_eq_true, if_false, Option.map_eq_some_iff, RWMutex.announce] at hst
            obtain ⟨m, hm, hst⟩ := hst
            split_ifs at hm
            simp at hm hst
            rw [← hst.1, ← hm]
            exact keep _ _ fun h => by subst h; simpa using hr
          · simp only [lockStep, if_true, Option.map_eq_some_iff, RWMutex.acquire] at hst
            obtain ⟨m, hm, hst⟩ := hst
            split_ifs at hm
            simp at hm hst
            rw [← hst.1, ← hm]
            exact keep _ _ fun h => by subst h; simpa using hr
        | unlock l' =>
          simp only [lockStep] at hst
          split_ifs at hst
          simp at hst
          rw [← hst.1]
          exact keep _ _ fun h => by subst h; simpa [RWMutex.unlock] using hr

/-- A goroutine that waits for the read lock while it holds it, and another waits for the write lock. -/
private theorem stuck_read {l : LockId} {p q s ls t v} (htv : t ≠ v) (h1 : t ∈ (s l).readers) (h2 : (s l).pending = some v)
    (h3 : ls t = ⟨.rlock l :: p, false⟩) (h4 : ls v = ⟨.lock l :: q, true⟩) : StuckForever s ls t ∧ StuckForever s ls v := by
  have key : ∀ s ls u i s' x es, (t ∈ (s l).readers ∧ (s l).pending = some v ∧ ls t = ⟨.rlock l :: p, false⟩ ∧ ls v = ⟨.lock l :: q, true⟩) →
      lockStep u i s (ls u) = some (s', x, es) → (t ∈ (s' l).readers ∧ (s' l).pending = some v ∧
        Function.update ls u x t = ⟨.rlock l :: p, false⟩ ∧ Function.update ls u x v = ⟨.lock l :: q, true⟩) := by
    rintro s ls u i s' x es ⟨hr, hpd, hl, hv⟩ hst
    rcases eq_or_ne u t with rfl | hne
    · rw [hl] at hst
      cases i with
      | some q => simp [lockStep] at hst
      | none =>
        simp only [lockStep, Option.map_eq_some_iff, RWMutex.rlock] at hst
        obtain ⟨m, hm, -⟩ := hst
        simp [hpd] at hm
    rcases eq_or_ne u v with rfl | hne2
    · rw [hv] at hst
      cases i with
      | some q => simp [lockStep] at hst
      | none =>
        simp only [lockStep, if_true, Option.map_eq_some_iff, RWMutex.acquire] at hst
        obtain ⟨m, hm, -⟩ := hst
        split_ifs at hm with hc
        rw [hc.2] at hr
        simp at hr
    · rw [Function.update_of_ne (Ne.symm hne), Function.update_of_ne (Ne.symm hne2)]
      suffices h : t ∈ (s' l).readers ∧ (s' l).pending = some v from ⟨h.1, h.2, hl, hv⟩
      generalize ls u = y at hst
      obtain ⟨todo, ann⟩ := y
      have keep : ∀ l' m, (l' = l → t ∈ m.readers ∧ m.pending = some v) →
          t ∈ (Function.update s l' m l).readers ∧ (Function.update s l' m l).pending = some v := by
        intro l' m h
        rcases eq_or_ne l l' with rfl | hl'
        · simpa using h rfl
        · rw [Function.update_of_ne hl']; exact ⟨hr, hpd⟩
      cases i with
      | some q =>
        cases todo <;> simp [lockStep] at hst
        rw [← hst.1]; exact ⟨hr, hpd⟩
      | none =>
        cases todo with
        | nil => simp [lockStep] at hst
        | cons o q =>
          cases o with
          | rlock l' =>
            simp only [lockStep, Option.map_eq_some_iff, RWMutex.rlock] at hst
            obtain ⟨m, hm, hst⟩ := hst
            split_ifs at hm
            simp at hm hst
            rw [← hst.1, ← hm]
            exact keep _ _ fun h => by subst h; simp [hr, hpd]
          | runlock l' =>
            simp only [lockStep] at hst
            split_ifs at hst
            simp at hst
            rw [← hst.1]
            exact keep _ _ fun h => by subst h; exact ⟨by simpa [RWMutex.runlock] using (List.mem_erase_of_ne (Ne.symm hne)).2 hr, hpd⟩
          | lock l' =>
            cases ann
            · simp only [lockStep, Bool.false_eq_true, if_false, Option.map_eq_some_iff, RWMutex.announce] at hst
              obtain ⟨m, hm, hst⟩ := hst
              split_ifs at hm with hc
              simp at hm hst
              rw [← hst.1, ← hm]
              exact keep _ _ fun h => by subst h; simp [hpd] at hc
            · simp only [lockStep, if_true, Option.map_eq_some_iff, RWMutex.acquire] at hst
              obtain ⟨m, hm, hst⟩ := hst
              split_ifs at hm with hc
              simp at hm hst
              rw [← hst.1, ← hm]
              exact keep _ _ fun h => by subst h; rw [hpd] at hc; exact absurd (Option.some.inj hc.1).symm hne2
          | unlock l' =>
            simp only [lockStep] at hst
            split_ifs at hst
            simp at hst
            rw [← hst.1]
            exact keep _ _ fun h => by subst h; simp [RWMutex.unlock, hr, hpd]
  exact ⟨stuck_of_inv _ ⟨h1, h2, h3, h4⟩ key fun s ls h => by simp [h.2.2.1], stuck_of_inv _ ⟨h1, h2, h3, h4⟩ key fun s ls h => by simp [h.2.2.2]⟩

/-- A goroutine that waits for the read lock while it holds the write lock. -/
private theorem stuck_ctor {l : LockId} {p s ls t} (h1 : (s l).writer = some t) (h2 : (s l).pending = none)
    (h3 : ls t = ⟨.rlock l :: p, false⟩) : StuckForever s ls t := by
  refine stuck_of_inv (fun s ls => (s l).writer = some t ∧ (s l).pending = none ∧ ls t = ⟨.rlock l :: p, false⟩) ⟨h1, h2, h3⟩ ?_ (fun s ls h => by simp [h.2.2])
  rintro s ls u i s' x es ⟨hw, hpd, hl⟩ hst
  rcases eq_or_ne u t with rfl | hne
  · rw [hl] at hst
    cases i with
    | some q => simp [lockStep] at hst
    | none =>
      simp only [lockStep, Option.map_eq_some_iff, RWMutex.rlock] at hst
      obtain ⟨m, hm, -⟩ := hst
      simp [hw] at hm
  · rw [Function.update_of_ne (Ne.symm hne)]
    suffices h : (s' l).writer = some t ∧ (s' l).pending = none from ⟨h.1, h.2, hl⟩
    generalize ls u = y at hst
    obtain ⟨todo, ann⟩ := y
    have keep : ∀ l' m, (l' = l → m.writer = some t ∧ m.pending = none) →
        (Function.update s l' m l).writer = some t ∧ (Function.update s l' m l).pending = none := by
      intro l' m h
      rcases eq_or_ne l l' with rfl | hl'
      · simpa using h rfl
      · rw [Function.update_of_ne hl']; exact ⟨hw, hpd⟩
    cases i with
    | some q =>
      cases todo <;> simp [lockStep] at hst
      rw [← hst.1]; exact ⟨hw, hpd⟩
    | none =>
      cases todo with
      | nil => simp [lockStep] at hst
      | cons o q =>
        cases o with
        | rlock l' =>
          simp only [lockStep, Option.map_eq_some_iff, RWMutex.rlock] at hst
          obtain ⟨m, hm, hst⟩ := hst
          split_ifs at hm with hc
          simp at hm hst
          rw [← hst.1, ← hm]
          exact keep _ _ fun h => by subst h; simp [hw] at hc
        | runlock l' =>
          simp only [lockStep] at hst
          split_ifs at hst
          simp at hst
          rw [← hst.1]
          exact keep _ _ fun h => by subst h; exact ⟨hw, hpd⟩
        | lock l' =>
          cases ann
          · simp only [lockStep, Bool.false_eq_true, if_false, Option.map_eq_some_iff, RWMutex.announce] at hst
            obtain ⟨m, hm, hst⟩ := hst
            split_ifs at hm with hc
            simp at hm hst
            rw [← hst.1, ← hm]
            exact keep _ _ fun h => by subst h; simp [hw] at hc
          · simp only [lockStep, if_true, Option.map_eq_some_iff, RWMutex.acquire] at hst
            obtain ⟨m, hm, hst⟩ := hst
            split_ifs at hm with hc
            simp at hm hst
            rw [← hst.1, ← hm]
            exact keep _ _ fun h => by subst h; simp [hpd] at hc
        | unlock l' =>
          simp only [lockStep] at hst
          split_ifs at hst with hc
          simp at hst
          rw [← hst.1]
          exact keep _ _ fun h => by subst h; rw [hw] at hc; exact absurd (Option.some.inj hc).symm hne

/-- The programs of the full statement: functions called under the lock of a registry may use any registry. -/
abbrev AnyProg : List LockOp → Prop := UserProg (fun _ _ => True) none

/-- **C55 refuted**: a healthcheck function that calls `Register` on the registry running it never returns, even if nobody else uses the registry. -/
theorem C55_refuted_healthcheck (id : Nat) : ∃ s ls, Reaches AnyProg s ls ∧ StuckForever s ls 0 ∧ (∀ t, t ≠ 0 → ls t = .idle) := by
  obtain ⟨s, ls, hr, h1, h2, h3⟩ : ∃ s ls, lockMachine.run (fun _ => .free) (fun _ => .idle)
      [(0, some (reading (.registry id) (locking (.registry id) []))), (0, none), (0, none)] = some (s, ls, []) ∧
      0 ∈ (s (.registry id)).readers ∧ ls 0 = ⟨.lock (.registry id) :: [.unlock (.registry id), .runlock (.registry id)], true⟩ ∧ (∀ t, t ≠ 0 → ls t = .idle) := by
    simp +contextual [Machine.run, lockMachine, lockStep, reading, locking, RWMutex.rlock, RWMutex.announce, RWMutex.free, LockLocal.idle, Function.update_of_ne]
  refine ⟨s, ls, ⟨_, _, ?_, hr⟩, stuck_write h1 h2, h3⟩
  intro x hx p hp
  simp at hx
  rcases hx with rfl | rfl | rfl <;> simp at hp
  subst hp
  exact .runHealthchecks id (by simp) (.register id (by simp))

/-- A healthcheck function that calls `Get` on the registry running it never returns if another goroutine calls `Register` meanwhile, and neither does `Register`. -/
theorem C55_refuted_healthcheck_get (id : Nat) : ∃ s ls, Reaches AnyProg s ls ∧ StuckForever s ls 0 ∧ StuckForever s ls 1 := by
  obtain ⟨s, ls, hr, h1, h2, h3, h4⟩ : ∃ s ls, lockMachine.run (fun _ => .free) (fun _ => .idle)
      [(0, some (reading (.registry id) (reading (.registry id) []))), (1, some (locking (.registry id) [])), (0, none), (1, none)] = some (s, ls, []) ∧
      0 ∈ (s (.registry id)).readers ∧ (s (.registry id)).pending = some 1 ∧
      ls 0 = ⟨.rlock (.registry id) :: [.runlock (.registry id), .runlock (.registry id)], false⟩ ∧ ls 1 = ⟨.lock (.registry id) :: [.unlock (.registry id)], true⟩ := by
    simp +contextual [Machine.run, lockMachine, lockStep, reading, locking, RWMutex.rlock, RWMutex.announce, RWMutex.free, LockLocal.idle, Function.update_of_ne]
  refine ⟨s, ls, ⟨_, _, ?_, hr⟩, stuck_read (by decide) h1 h2 h3 h4⟩
  intro x hx p hp
  simp at hx
  rcases hx with rfl | rfl | rfl | rfl <;> simp at hp
  · subst hp
    exact .runHealthchecks id (by simp) (.read id (by simp))
  · subst hp
    exact .register id (by simp)

/-- A lazy constructor that calls `Get` on the registry never returns. -/
theorem C55_refuted_constructor (id : Nat) : ∃ s ls, Reaches AnyProg s ls ∧ StuckForever s ls 0 ∧ (∀ t, t ≠ 0 → ls t = .idle) := by
  obtain ⟨s, ls, hr, h1, h2, h3, h4⟩ : ∃ s ls, lockMachine.run (fun _ => .free) (fun _ => .idle)
      [(0, some (reading (.registry id) [] ++ locking (.registry id) (reading (.registry id) []))), (0, none), (0, none), (0, none), (0, none)] = some (s, ls, []) ∧
      (s (.registry id)).writer = some 0 ∧ (s (.registry id)).pending = none ∧
      ls 0 = ⟨.rlock (.registry id) :: [.runlock (.registry id), .unlock (.registry id)], false⟩ ∧ (∀ t, t ≠ 0 → ls t = .idle) := by
    simp +contextual [Machine.run, lockMachine, lockStep, reading, locking, RWMutex.rlock, RWMutex.runlock, RWMutex.announce, RWMutex.acquire, RWMutex.free,
      LockLocal.idle, Function.update_of_ne]
  refine ⟨s, ls, ⟨_, _, ?_, hr⟩, stuck_ctor h1 h2 h3, h4⟩
  intro x hx p hp
  simp at hx
  rcases hx with rfl | rfl | rfl | rfl | rfl <;> simp at hp
  subst hp
  exact .getOrRegister id (by simp) (.read id (by simp))

end GoMetrics
