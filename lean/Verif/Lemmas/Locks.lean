import Verif.Model.Locks
import Verif.Lemmas.Machine
import Verif.Lemmas.RWMutex
import Mathlib.Order.WithBot
import Mathlib.Order.Lattice
import Mathlib.Data.Nat.Cast.WithTop
import Mathlib.Algebra.BigOperators.Group.Finset.Basic
import Mathlib.Order.Interval.Finset.Nat
import Mathlib.Algebra.Order.BigOperators.Group.Finset

/-! Locks taken in order of decreasing depth: somebody can always go on. -/

set_option linter.unusedSimpArgs false

namespace GoMetrics

/-- A goroutine may take a lock only while all it holds are deeper. -/
def LockId.depth : LockId → WithTop ℕ
  | .once _ => ⊤
  | .registry id => ((id + 4 : ℕ) : WithTop ℕ)
  | .timer _ => ((3 : ℕ) : WithTop ℕ)
  | .sample _ => ((2 : ℕ) : WithTop ℕ)
  | .arbiter => ((1 : ℕ) : WithTop ℕ)
  | .ewma _ => ((0 : ℕ) : WithTop ℕ)
  | .expvar => ((0 : ℕ) : WithTop ℕ)

/-- The program keeps to that, and releases what it takes, last taken first. The list: what is held (for writing?). -/
def Disc : List (LockId × Bool) → List LockOp → Prop
  | H, [] => H = []
  | H, .rlock l :: p => (∀ x ∈ H, l.depth < x.1.depth) ∧ Disc ((l, false) :: H) p
  | H, .lock l :: p => (∀ x ∈ H, l.depth < x.1.depth) ∧ Disc ((l, true) :: H) p
  | H, .runlock l :: p => ∃ H', H = (l, false) :: H' ∧ Disc H' p
  | H, .unlock l :: p => ∃ H', H = (l, true) :: H' ∧ Disc H' p

/-- `p` is in order when started while holding locks satisfying `c`. -/
def Fits (c : LockId → Prop) (p : List LockOp) : Prop := ∀ H q, (∀ x ∈ H, c x.1) → Disc H q → Disc H (p ++ q)

theorem Fits.nil {c} : Fits c [] := fun _ _ _ h => h
theorem Fits.append {c p q} (hp : Fits c p) (hq : Fits c q) : Fits c (p ++ q) := fun H r h hd => by
  rw [List.append_assoc]; exact hp _ _ h (hq _ _ h hd)
theorem Fits.mono {c c' : LockId → Prop} {p} (hp : Fits c p) (h : ∀ l, c' l → c l) : Fits c' p := fun H q hH hd => hp H q (fun x hx => h _ (hH x hx)) hd
theorem Fits.reading {c : LockId → Prop} {l p} (hp : Fits (fun x => c x ∨ x = l) p) (hl : ∀ x, c x → l.depth < x.depth) : Fits c (reading l p) := by
  intro H q hH hd
  simp only [GoMetrics.reading, List.cons_append, List.append_assoc, Disc]
  exact ⟨fun x hx => hl _ (hH x hx), hp _ _ (fun x hx => (List.mem_cons.1 hx).elim (fun h => .inr (by rw [h])) fun h => .inl (hH _ h)) ⟨H, rfl, hd⟩⟩
theorem Fits.locking {c : LockId → Prop} {l p} (hp : Fits (fun x => c x ∨ x = l) p) (hl : ∀ x, c x → l.depth < x.depth) : Fits c (locking l p) := by
  intro H q hH hd
  simp only [GoMetrics.locking, List.cons_append, List.append_assoc, Disc]
  exact ⟨fun x hx => hl _ (hH x hx), hp _ _ (fun x hx => (List.mem_cons.1 hx).elim (fun h => .inr (by rw [h])) fun h => .inl (hH _ h)) ⟨H, rfl, hd⟩⟩
theorem Fits.flatten {c : LockId → Prop} {ps : List (List LockOp)} (h : ∀ p ∈ ps, Fits c p) : Fits c ps.flatten := by
  induction ps with
  | nil => exact .nil
  | cons p ps ih => exact (h p (by simp)).append (ih fun q hq => h q (by simp [hq]))

theorem MetricProg.fits {p} (h : MetricProg p) : Fits (fun x => ((4 : ℕ) : WithTop ℕ) ≤ x.depth) p := by
  have below : ∀ l : LockId, l.depth < ((4 : ℕ) : WithTop ℕ) → ∀ x : LockId, ((4 : ℕ) : WithTop ℕ) ≤ x.depth → l.depth < x.depth :=
    fun l h x hx => lt_of_lt_of_le h hx
  induction h with
  | nil => exact .nil
  | append _ _ h1 h2 => exact h1.append h2
  | sample r => exact .locking .nil (below _ (by simp only [LockId.depth]; exact_mod_cast by decide))
  | firstTick r => exact .locking .nil (below _ (by simp only [LockId.depth]; exact_mod_cast by decide))
  | arbiter => exact .locking .nil (below _ (by simp only [LockId.depth]; exact_mod_cast by decide))
  | tickMeters first =>
    refine .reading ?_ (below _ (by simp only [LockId.depth]; exact_mod_cast by decide))
    rw [List.flatMap_def]
    refine .flatten fun p hp => ?_
    obtain ⟨e, _, rfl⟩ := List.mem_map.1 hp
    refine .locking .nil ?_
    rintro x (hx | rfl)
    · exact below _ (by simp only [LockId.depth]; exact_mod_cast by decide) x hx
    · simp only [LockId.depth]; exact_mod_cast by decide
  | timer r s =>
    refine .locking ?_ (below _ (by simp only [LockId.depth]; exact_mod_cast by decide))
    cases s with
    | none => exact .nil
    | some s =>
      refine .locking .nil ?_
      rintro x (hx | rfl)
      · exact below _ (by simp only [LockId.depth]; exact_mod_cast by decide) x hx
      · simp only [LockId.depth]; exact_mod_cast by decide
  | expvar => exact .locking .nil (below _ (by simp only [LockId.depth]; exact_mod_cast by decide))

/-- What may be held by a function called under the lock of registry `c`. -/
def ctxOk : Option Nat → LockId → Prop
  | none, _ => False
  | some j, x => (LockId.registry j).depth ≤ x.depth

theorem reg_depth (j : Nat) : ((4 : ℕ) : WithTop ℕ) ≤ (LockId.registry j).depth := by
  simp only [LockId.depth]; exact_mod_cast Nat.le_add_left 4 j

theorem ctxOk.le {c x} (h : ctxOk c x) : ((4 : ℕ) : WithTop ℕ) ≤ x.depth := by
  cases c with
  | none => exact h.elim
  | some j => exact le_trans (reg_depth j) h

/-- The functions called under the lock of a registry use only registries with smaller numbers. -/
theorem UserProg.fits {ok : Nat → Nat → Prop} (hok : ∀ j id, ok j id → id < j) {c p} (h : UserProg ok c p) : Fits (ctxOk c) p := by
  have key : ∀ {c : Option Nat} {id : Nat}, (∀ j ∈ c, ok j id) → ∀ x, ctxOk c x → (LockId.registry id).depth < x.depth := by
    intro c id h x hx
    cases c with
    | none => exact hx.elim
    | some j =>
      refine lt_of_lt_of_le ?_ hx
      simp only [LockId.depth]
      exact_mod_cast Nat.add_lt_add_right (hok _ _ (h j rfl)) 4
  have sub : ∀ {c : Option Nat} {id : Nat}, (∀ j ∈ c, ok j id) → ∀ x, (ctxOk c x ∨ x = LockId.registry id) → ctxOk (some id) x := by
    intro c id h x hx
    rcases hx with hx | rfl
    · exact le_of_lt (key h x hx)
    · exact le_refl _
  have arb : ∀ x : LockId, ((4 : ℕ) : WithTop ℕ) ≤ x.depth → LockId.arbiter.depth < x.depth :=
    fun x hx => lt_of_lt_of_le (by simp only [LockId.depth]; exact_mod_cast by decide) hx
  induction h with
  | nil => exact .nil
  | append _ _ h1 h2 => exact h1.append h2
  | metric h => exact h.fits.mono fun l hl => hl.le
  | read id h => exact .reading .nil (key h)
  | getOrRegister id h _ ih => exact .append (.reading .nil (key h)) (.locking (ih.mono (sub h)) (key h))
  | register id h => exact .locking .nil (key h)
  | unregister id n h =>
    refine .locking (.flatten fun p hp => ?_) (key h)
    obtain ⟨_, rfl⟩ := List.mem_replicate.1 hp
    exact .locking .nil fun x hx => arb x (sub h x hx).le
  | runHealthchecks id h _ ih => exact .reading (ih.mono (sub h)) (key h)
  | once n id j k =>
    refine .locking (.append (.flatten fun p hp => ?_) (.flatten fun p hp => ?_)) fun x hx => hx.elim
    · obtain ⟨_, rfl⟩ := List.mem_replicate.1 hp
      refine .locking .nil fun x hx => ?_
      rcases hx with hx | rfl
      · exact hx.elim
      · exact arb _ (by simp [LockId.depth])
    · obtain ⟨_, rfl⟩ := List.mem_replicate.1 hp
      refine .locking .nil fun x hx => ?_
      rcases hx with hx | rfl
      · exact hx.elim
      · simp only [LockId.depth]; exact WithTop.coe_lt_top _

theorem UserProg.disc {ok : Nat → Nat → Prop} (hok : ∀ j id, ok j id → id < j) {p} (h : UserProg ok none p) : Disc [] p := by
  simpa using h.fits hok [] [] (by simp) rfl

/-! ### The invariant -/

/-- What a goroutine has of lock `l`. -/
def holdOf (l : LockId) (H : List (LockId × Bool)) (x : LockLocal) : Hold :=
  if (l, true) ∈ H then .write else if (l, false) ∈ H then .read
  else if x.announced = true ∧ x.todo.head? = some (.lock l) then .pend else .no

structure LockInv (s : LockId → RWMutex) (ls : Nat → LockLocal) (Hs : Nat → List (LockId × Bool)) : Prop where
  disc : ∀ t, Disc (Hs t) (ls t).todo
  sorted : ∀ t, (Hs t).Pairwise fun x y => x.1.depth < y.1.depth
  ann : ∀ t, (ls t).announced = true → ∃ l, (ls t).todo.head? = some (.lock l)
  mutex : ∀ l, (s l).Inv fun t => holdOf l (Hs t) (ls t)

theorem LockInv.init : LockInv (fun _ => .free) (fun _ => .idle) (fun _ => []) :=
  ⟨fun _ => rfl, fun _ => .nil, fun _ h => by simp [LockLocal.idle] at h, fun l => .free fun t => by simp [holdOf, LockLocal.idle]⟩

/-- A step that changes lock `l` by an operation of goroutine `t`. -/
theorem LockInv.upd {s ls Hs} (hi : LockInv s ls Hs) (t : Nat) (l : LockId) (m : RWMutex) (x : LockLocal) (H : List (LockId × Bool))
    (hd : Disc H x.todo) (hs : H.Pairwise fun x y => x.1.depth < y.1.depth) (ha : x.announced = true → ∃ l, x.todo.head? = some (.lock l))
    (hm : RWMutex.Trans t (s l) (holdOf l (Hs t) (ls t)) m (holdOf l H x))
    (ho : ∀ l', l' ≠ l → holdOf l' H x = holdOf l' (Hs t) (ls t)) :
    LockInv (Function.update s l m) (Function.update ls t x) (Function.update Hs t H) := by
  refine ⟨fun u => ?_, fun u => ?_, fun u => ?_, fun l' => ?_⟩
  · rcases eq_or_ne u t with rfl | hne
    · simpa using hd
    · simpa [Function.update_of_ne hne] using hi.disc u
  · rcases eq_or_ne u t with rfl | hne
    · simpa using hs
    · simpa [Function.update_of_ne hne] using hi.sorted u
  · rcases eq_or_ne u t with rfl | hne
    · simpa using ha
    · simpa [Function.update_of_ne hne] using hi.ann u
  · have e : (fun u => holdOf l' (Function.update Hs t H u) (Function.update ls t x u)) =
        Function.update (fun u => holdOf l' (Hs u) (ls u)) t (holdOf l' H x) := by
      funext u
      rcases eq_or_ne u t with rfl | hne
      · simp
      · simp [Function.update_of_ne hne]
    rw [e]
    rcases eq_or_ne l' l with rfl | hne
    · rw [Function.update_self]
      exact (hi.mutex l').trans hm
    · rw [Function.update_of_ne hne, ho l' hne]
      rw [Function.update_eq_self t (fun u => holdOf l' (Hs u) (ls u))]
      exact hi.mutex l'

theorem not_mem_of_depth {l : LockId} {H : List (LockId × Bool)} (h : ∀ x ∈ H, l.depth < x.1.depth) (b : Bool) : (l, b) ∉ H :=
  fun hm => lt_irrefl _ (h _ hm)

theorem LockInv.step {s ls Hs} (hi : LockInv s ls Hs) {t i s' x es} (hp : ∀ p ∈ i, Disc [] p) (h : lockStep t i s (ls t) = some (s', x, es)) :
    ∃ H, LockInv s' (Function.update ls t x) (Function.update Hs t H) := by
  have hd := hi.disc t
  have hso := hi.sorted t
  have han := hi.ann t
  generalize hH : Hs t = H at hd hso
  generalize hx : ls t = y at hd h han
  obtain ⟨todo, ann⟩ := y
  have anno : ∀ o p, todo = o :: p → (∀ l, o ≠ .lock l) → ann = false := by
    intro o p ht ho
    cases ann with
    | false => rfl
    | true =>
      obtain ⟨l, hl⟩ := han rfl
      simp [ht] at hl
      exact absurd hl (ho l)
  cases i with
  | some p =>
    cases todo with
    | nil =>
      simp [lockStep] at h
      obtain ⟨rfl, rfl, -⟩ := h
      simp [Disc] at hd
      subst hd
      have ha : ann = false := by
        cases ann with
        | false => rfl
        | true => obtain ⟨l, hl⟩ := han rfl; simp at hl
      subst ha
      refine ⟨[], ?_⟩
      have := hi.upd t .arbiter (s .arbiter) ⟨p, false⟩ [] (hp p rfl) .nil (by simp) (by rw [hH, hx]; simp [holdOf]; exact .none)
        (fun l' _ => by rw [hH, hx]; simp [holdOf])
      rwa [Function.update_eq_self] at this
    | cons o q => simp [lockStep] at h
  | none =>
    cases todo with
    | nil => simp [lockStep] at h
    | cons o q =>
      cases o with
      | rlock l =>
        have ha := anno _ _ rfl (by simp)
        subst ha
        simp only [lockStep, Option.map_eq_some_iff] at h
        obtain ⟨m, hm, h⟩ := h
        simp at h
        obtain ⟨rfl, rfl, -⟩ := h
        obtain ⟨hr, hd⟩ := hd
        refine ⟨(l, false) :: H, hi.upd t l m _ _ hd (List.pairwise_cons.2 ⟨fun y hy => hr y hy, hso⟩) (by simp) ?_ fun l' hl' => ?_⟩
        · rw [hH, hx]
          simp [holdOf, not_mem_of_depth hr]
          exact .rlock hm
        · rw [hH, hx]; simp [holdOf, hl']
      | runlock l =>
        have ha := anno _ _ rfl (by simp)
        subst ha
        simp only [lockStep] at h
        split_ifs at h with hm
        simp at h
        obtain ⟨rfl, rfl, -⟩ := h
        obtain ⟨H', rfl, hd⟩ := hd
        rw [List.pairwise_cons] at hso
        refine ⟨H', hi.upd t l _ _ _ hd hso.2 (by simp) ?_ fun l' hl' => ?_⟩
        · rw [hH, hx]
          simp [holdOf, not_mem_of_depth (H := H') (l := l) (fun y hy => hso.1 y hy)]
          exact .runlock
        · rw [hH, hx]; simp [holdOf, hl']
      | lock l =>
        obtain ⟨hr, hd⟩ := hd
        cases ann with
        | false =>
          simp only [lockStep, Bool.false_eq_true, if_false, Option.map_eq_some_iff] at h
          obtain ⟨m, hm, h⟩ := h
          simp at h
          obtain ⟨rfl, rfl, -⟩ := h
          refine ⟨H, hi.upd t l m _ _ ⟨hr, hd⟩ hso (by simp) ?_ fun l' hl' => ?_⟩
          · rw [hH, hx]
            simp [holdOf, not_mem_of_depth hr]
            exact .announce hm
          · rw [hH, hx]; simp [holdOf, hl', Ne.symm hl']
        | true =>
          simp only [lockStep, if_true, Option.map_eq_some_iff] at h
          obtain ⟨m, hm, h⟩ := h
          simp at h
          obtain ⟨rfl, rfl, -⟩ := h
          refine ⟨(l, true) :: H, hi.upd t l m _ _ hd (List.pairwise_cons.2 ⟨fun y hy => hr y hy, hso⟩) (by simp) ?_ fun l' hl' => ?_⟩
          · rw [hH, hx]
            simp [holdOf, not_mem_of_depth hr]
            exact .acquire hm
          · rw [hH, hx]; simp [holdOf, hl', Ne.symm hl']
      | unlock l =>
        have ha := anno _ _ rfl (by simp)
        subst ha
        simp only [lockStep] at h
        split_ifs at h with hm
        simp at h
        obtain ⟨rfl, rfl, -⟩ := h
        obtain ⟨H', rfl, hd⟩ := hd
        rw [List.pairwise_cons] at hso
        refine ⟨H', hi.upd t l _ _ _ hd hso.2 (by simp) ?_ fun l' hl' => ?_⟩
        · rw [hH, hx]
          simp [holdOf, not_mem_of_depth (H := H') (l := l) (fun y hy => hso.1 y hy)]
          exact .unlock
        · rw [hH, hx]; simp [holdOf, hl']

theorem lock_inv {sched s ls tr} (hp : ∀ x ∈ sched, ∀ p ∈ x.2, Disc [] p) (h : lockMachine.run (fun _ => .free) (fun _ => .idle) sched = some (s, ls, tr)) :
    ∃ Hs, LockInv s ls Hs := by
  refine lockMachine.induct_on (fun i => ∀ p ∈ i, Disc [] p) (fun s ls _ => ∃ Hs, LockInv s ls Hs) ⟨_, .init⟩ ?_ sched s ls tr hp h
  rintro s ls tr t i s' l' es hp ⟨Hs, hi⟩ hst
  obtain ⟨H, h⟩ := hi.step hp hst
  exact ⟨_, h⟩

/-! ### Progress -/

/-- A goroutine with something to do and all blocked: it waits for a lock. -/
theorem LockInv.waits {s ls Hs} (hi : LockInv s ls Hs) {t} (hb : (ls t).todo ≠ []) (hn : lockStep t none s (ls t) = none) :
    ∃ l, (∀ x ∈ Hs t, l.depth < x.1.depth) ∧ ((s l).writer ≠ none ∨ (∃ u, u ≠ t ∧ (s l).pending = some u) ∨ (s l).readers ≠ []) ∧
      ((ls t).announced = true → (ls t).todo.head? = some (.lock l) ∧ (s l).readers ≠ []) ∧
      ((ls t).announced = false → (s l).writer ≠ none ∨ (s l).pending ≠ none) := by
  have hd := hi.disc t
  have han := hi.ann t
  have hmx := fun l => hi.mutex l
  have hholds : ∀ l, holdOf l (Hs t) (ls t) = holdOf l (Hs t) (ls t) := fun _ => rfl
  generalize hH : Hs t = H at hd
  generalize hx : ls t = y at hd hn han hb
  obtain ⟨todo, ann⟩ := y
  have anno : ∀ o p, todo = o :: p → (∀ l, o ≠ .lock l) → ann = false := by
    intro o p ht ho
    cases ann with
    | false => rfl
    | true =>
      obtain ⟨l, hl⟩ := han rfl
      simp [ht] at hl
      exact absurd hl (ho l)
  cases todo with
  | nil => exact absurd rfl hb
  | cons o q =>
    cases o with
    | rlock l =>
      have ha := anno _ _ rfl (by simp)
      subst ha
      simp only [lockStep, Option.map_eq_none_iff, RWMutex.rlock] at hn
      split_ifs at hn with hc
      obtain ⟨hr, hd⟩ := hd
      have hno : holdOf l (Hs t) (ls t) = .no := by rw [hH, hx]; simp [holdOf, not_mem_of_depth hr]
      refine ⟨l, hr, ?_, by simp, fun _ => by tauto⟩
      by_cases hw : (s l).writer = none
      · cases hpd : (s l).pending with
        | none => exact absurd ⟨hw, hpd⟩ hc
        | some u =>
          refine .inr (.inl ⟨u, ?_, rfl⟩)
          rintro rfl
          have := ((hmx l).p u).2 hpd
          rw [hno] at this
          simp at this
      · exact .inl hw
    | runlock l =>
      obtain ⟨H', rfl, hd⟩ := hd
      have hso := hi.sorted t
      rw [hH, List.pairwise_cons] at hso
      have hr : holdOf l (Hs t) (ls t) = .read := by
        rw [hH]
        simp [holdOf, not_mem_of_depth (H := H') (l := l) (fun y hy => hso.1 y hy)]
      have := (hmx l).r t
      rw [if_pos hr] at this
      simp only [lockStep] at hn
      rw [if_pos (List.count_pos_iff.1 (by omega))] at hn
      simp at hn
    | unlock l =>
      obtain ⟨H', rfl, hd⟩ := hd
      have hr : holdOf l (Hs t) (ls t) = .write := by
        rw [hH]
        simp [holdOf]
      simp only [lockStep] at hn
      rw [if_pos (((hmx l).w t).1 hr)] at hn
      simp at hn
    | lock l =>
      obtain ⟨hr, hd⟩ := hd
      cases ann with
      | false =>
        simp only [lockStep, Bool.false_eq_true, if_false, Option.map_eq_none_iff, RWMutex.announce] at hn
        split_ifs at hn with hc
        have hno : holdOf l (Hs t) (ls t) = .no := by rw [hH, hx]; simp [holdOf, not_mem_of_depth hr]
        refine ⟨l, hr, ?_, by simp, fun _ => by tauto⟩
        by_cases hw : (s l).writer = none
        · cases hpd : (s l).pending with
          | none => exact absurd ⟨hw, hpd⟩ hc
          | some u =>
            refine .inr (.inl ⟨u, ?_, rfl⟩)
            rintro rfl
            have := ((hmx l).p u).2 hpd
            rw [hno] at this
            simp at this
        · exact .inl hw
      | true =>
        simp only [lockStep, if_true, Option.map_eq_none_iff, RWMutex.acquire] at hn
        have hpd : holdOf l (Hs t) (ls t) = .pend := by rw [hH, hx]; simp [holdOf, not_mem_of_depth hr]
        have := ((hmx l).p t).1 hpd
        rw [this] at hn
        split_ifs at hn with hc
        have hrd : (s l).readers ≠ [] := by simpa using hc
        exact ⟨l, hr, .inr (.inr hrd), fun _ => ⟨rfl, hrd⟩, by simp⟩

theorem LockInv.busy {s ls Hs} (hi : LockInv s ls Hs) {t l b} (h : (l, b) ∈ Hs t) : (ls t).todo ≠ [] := by
  intro he
  have := hi.disc t
  rw [he] at this
  simp only [Disc] at this
  rw [this] at h
  simp at h

theorem LockInv.reader {s ls Hs} (hi : LockInv s ls Hs) {l} (h : (s l).readers ≠ []) : ∃ u, (l, false) ∈ Hs u := by
  obtain ⟨u, hu⟩ := List.exists_mem_of_ne_nil _ h
  refine ⟨u, ?_⟩
  have := (hi.mutex l).r u
  by_contra hc
  rw [if_neg (by simp only [holdOf, hc, if_false]; split_ifs <;> simp)] at this
  exact absurd hu (List.count_eq_zero.1 this)

theorem LockInv.writerOf {s ls Hs} (hi : LockInv s ls Hs) {l u} (h : (s l).writer = some u) : (l, true) ∈ Hs u := by
  have := ((hi.mutex l).w u).2 h
  by_contra hc
  simp only [holdOf, hc, if_false] at this
  split_ifs at this

theorem LockInv.pendOf {s ls Hs} (hi : LockInv s ls Hs) {l u} (h : (s l).pending = some u) :
    (ls u).announced = true ∧ (ls u).todo.head? = some (.lock l) := by
  have := ((hi.mutex l).p u).2 h
  simp only [holdOf] at this
  split_ifs at this with h1 h2 h3
  exact h3

/-- If anybody has something to do, somebody can do a step. -/
theorem LockInv.progress {s ls Hs} (hi : LockInv s ls Hs) {t} (hb : (ls t).todo ≠ []) : ∃ u x, (ls u).todo ≠ [] ∧ lockStep u none s (ls u) = some x := by
  by_contra hc
  have hall : ∀ u, (ls u).todo ≠ [] → lockStep u none s (ls u) = none := by
    intro u hu
    by_contra h
    obtain ⟨x, hx⟩ := Option.ne_none_iff_exists'.1 h
    exact hc ⟨u, x, hu, hx⟩
  -- nobody can hold a lock
  have none_held : ∀ d : WithTop ℕ, ∀ l : LockId, l.depth = d → ∀ u b, (l, b) ∉ Hs u := by
    intro d
    induction d using WellFoundedLT.induction with
    | _ d ih =>
      intro l hl u b hm
      have hub := hi.busy hm
      obtain ⟨l', hd, hw, h1, h2⟩ := hi.waits hub (hall u hub)
      have hlt : l'.depth < d := hl ▸ hd _ hm
      have hnw : (s l').writer = none := by
        by_contra hne
        obtain ⟨v, hv⟩ := Option.ne_none_iff_exists'.1 hne
        exact ih _ hlt l' rfl v true (hi.writerOf hv)
      have hnr : (s l').readers = [] := by
        by_contra hne
        obtain ⟨v, hv⟩ := hi.reader hne
        exact ih _ hlt l' rfl v false hv
      rcases hw with hw | ⟨v, hv, hpd⟩ | hw
      · exact hw hnw
      · obtain ⟨ha, hh⟩ := hi.pendOf hpd
        have hvb : (ls v).todo ≠ [] := fun he => by simp [he] at hh
        obtain ⟨l2, -, -, h3, -⟩ := hi.waits hvb (hall v hvb)
        obtain ⟨h4, h5⟩ := h3 ha
        rw [hh] at h4
        simp at h4
        subst h4
        exact h5 hnr
      · exact hw hnr
  obtain ⟨l, -, hw, -, -⟩ := hi.waits hb (hall t hb)
  have hnw : (s l).writer = none := by
    by_contra hne
    obtain ⟨v, hv⟩ := Option.ne_none_iff_exists'.1 hne
    exact none_held _ l rfl v true (hi.writerOf hv)
  have hnr : (s l).readers = [] := by
    by_contra hne
    obtain ⟨v, hv⟩ := hi.reader hne
    exact none_held _ l rfl v false hv
  rcases hw with hw | ⟨v, hv, hpd⟩ | hw
  · exact hw hnw
  · obtain ⟨ha, hh⟩ := hi.pendOf hpd
    have hvb : (ls v).todo ≠ [] := fun he => by simp [he] at hh
    obtain ⟨l2, -, -, h3, -⟩ := hi.waits hvb (hall v hvb)
    obtain ⟨h4, h5⟩ := h3 ha
    rw [hh] at h4
    simp at h4
    subst h4
    exact h5 hnr
  · exact hw hnr

/-- If nobody has anything to do all locks are free. -/
theorem LockInv.all_free {s ls Hs} (hi : LockInv s ls Hs) (h : ∀ t, (ls t).todo = []) (l : LockId) : s l = .free := by
  have hH : ∀ t, Hs t = [] := fun t => by simpa [h t, Disc] using hi.disc t
  have hr : (s l).readers = [] := by
    by_contra hne
    obtain ⟨u, hu⟩ := hi.reader hne
    simp [hH] at hu
  have hw : (s l).writer = none := by
    by_contra hne
    obtain ⟨u, hu⟩ := Option.ne_none_iff_exists'.1 hne
    simpa [hH] using hi.writerOf hu
  have hp : (s l).pending = none := by
    by_contra hne
    obtain ⟨u, hu⟩ := Option.ne_none_iff_exists'.1 hne
    simpa [h] using hi.pendOf hu
  cases hm : s l
  rw [hm] at hr hw hp
  simp only at hr hw hp
  subst hr hw hp
  rfl

/-! ### Termination -/

def LockLocal.size (x : LockLocal) : Nat := 2 * x.todo.length + (if x.announced then 0 else 1)

/-- An upper bound for the steps left. -/
theorem lock_bound {s ls} (sched : List (Nat × Option (List LockOp))) {s' ls' tr} (hn : ∀ x ∈ sched, x.2 = none)
    (h : lockMachine.run s ls sched = some (s', ls', tr)) (n : Nat) (hb : ∀ t, n ≤ t → (ls t).todo = []) :
    sched.length + ∑ t ∈ Finset.range n, (ls' t).size ≤ ∑ t ∈ Finset.range n, (ls t).size ∧ ∀ t, n ≤ t → (ls' t).todo = [] := by
  induction sched generalizing s ls tr with
  | nil =>
    simp [Machine.run] at h
    obtain ⟨rfl, rfl, rfl⟩ := h
    exact ⟨by simp, hb⟩
  | cons x sched ih =>
    obtain ⟨t, i⟩ := x
    obtain rfl : i = none := hn (t, i) (by simp)
    obtain ⟨s1, x1, es, tr2, h1, h2, rfl⟩ := lockMachine.run_cons h
    have hstep : (ls t).todo ≠ [] ∧ x1.size < (ls t).size := by
      generalize ls t = y at h1
      obtain ⟨todo, ann⟩ := y
      cases todo with
      | nil => simp [lockMachine, lockStep] at h1
      | cons o q =>
        refine ⟨by simp, ?_⟩
        cases o with
        | rlock l =>
          simp [lockMachine, lockStep] at h1
          obtain ⟨_, _, _, rfl, _⟩ := h1
          simp [LockLocal.size]; split_ifs <;> omega
        | runlock l =>
          simp [lockMachine, lockStep] at h1
          obtain ⟨_, _, rfl, _⟩ := h1
          simp [LockLocal.size]; split_ifs <;> omega
        | lock l =>
          cases ann
          · simp [lockMachine, lockStep] at h1
            obtain ⟨_, _, _, rfl, _⟩ := h1
            simp [LockLocal.size]
          · simp [lockMachine, lockStep] at h1
            obtain ⟨_, _, _, rfl, _⟩ := h1
            simp [LockLocal.size]; omega
        | unlock l =>
          simp [lockMachine, lockStep] at h1
          obtain ⟨_, _, rfl, _⟩ := h1
          simp [LockLocal.size]; split_ifs <;> omega
    have ht : t < n := by
      by_contra hc
      exact hstep.1 (hb t (by omega))
    have hb1 : ∀ u, n ≤ u → (Function.update ls t x1 u).todo = [] := fun u hu => by
      rw [Function.update_of_ne (by omega)]; exact hb u hu
    obtain ⟨h3, h4⟩ := ih (fun y hy => hn y (by simp [hy])) h2 hb1
    refine ⟨?_, h4⟩
    have h5 : ∑ u ∈ Finset.range n, (Function.update ls t x1 u).size < ∑ u ∈ Finset.range n, (ls u).size := by
      refine Finset.sum_lt_sum (fun u _ => ?_) ⟨t, by simpa using ht, by simpa using hstep.2⟩
      rcases eq_or_ne u t with rfl | hne
      · simpa using hstep.2.le
      · simp [Function.update_of_ne hne]
    simp only [List.length_cons]
    omega

/-- Only finitely many goroutines have been started. -/
theorem lock_finite {sched s ls tr} (h : lockMachine.run (fun _ => .free) (fun _ => .idle) sched = some (s, ls, tr)) :
    ∃ n, ∀ t, n ≤ t → (ls t).todo = [] := by
  refine lockMachine.induct (fun _ ls _ => ∃ n, ∀ t, n ≤ t → (ls t).todo = []) ⟨0, fun _ _ => rfl⟩ ?_ sched s ls tr h
  rintro s ls tr t i s' l' es ⟨n, hn⟩ _
  refine ⟨max n (t + 1), fun u hu => ?_⟩
  rw [Function.update_of_ne (by omega)]
  exact hn u (by omega)

end GoMetrics
