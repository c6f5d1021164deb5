import Verif.Spec.ArbiterConc
import Verif.Lemmas.Machine
import Verif.Lemmas.RWMutex

/-! Invariants of the shared clock. -/

set_option linter.unusedSimpArgs false

namespace GoMetrics

/-- The transitions. -/
inductive AStep (t : Nat) (s : ArbS) : AFrame → ArbS → AFrame → List AEv → Prop where
  | new : AStep t s .idle { s with next := s.next + 1 } (.newLock s.next) [.callNew t]
  | stop {m} : m ∈ s.returned → AStep t s .idle s (.stopCas m) [.callStop t m]
  | begin : 0 < s.spawned → AStep t s .idle { s with spawned := s.spawned - 1 } .wait []
  | newLock {m rw} : s.rw.announce t = some rw → AStep t s (.newLock m) { s with rw := rw } (.newPend m) []
  | newPend {m rw} : s.rw.acquire t = some rw → AStep t s (.newPend m) { s with rw := rw } (.newInsert m) []
  | newInsert {m} : AStep t s (.newInsert m) { s with meters := m :: s.meters } (.newTest m) []
  | newTest1 {m} : s.started = true → AStep t s (.newTest m) s (.newUnlock m) []
  | newTest0 {m} : s.started = false → AStep t s (.newTest m) s (.newSet m) []
  | newSet {m} : AStep t s (.newSet m) { s with started := true } (.newGo m) []
  | newGo {m} : AStep t s (.newGo m) { s with spawned := s.spawned + 1 } (.newUnlock m) [.go t]
  | newUnlock {m} : AStep t s (.newUnlock m) { s with rw := s.rw.unlock, returned := m :: s.returned } .idle [.retNew t m]
  | cas1 {m} : s.stopped m = true → AStep t s (.stopCas m) s .idle [.retStop t m false]
  | cas0 {m} : s.stopped m = false → AStep t s (.stopCas m) { s with stopped := Function.update s.stopped m true } (.stopLock m) []
  | stopLock {m rw} : s.rw.announce t = some rw → AStep t s (.stopLock m) { s with rw := rw } (.stopPend m) []
  | stopPend {m rw} : s.rw.acquire t = some rw → AStep t s (.stopPend m) { s with rw := rw } (.stopDelete m) []
  | stopDelete {m} : AStep t s (.stopDelete m) { s with meters := s.meters.filter (· != m) } (.stopUnlock m) []
  | stopUnlock {m} : AStep t s (.stopUnlock m) { s with rw := s.rw.unlock } .idle [.retStop t m true]
  | wait {rw} : s.rw.rlock t = some rw → AStep t s .wait { s with rw := rw } (.range []) [.roundBegin t]
  | visit {m seen} : m ∈ s.meters → m ∉ seen → AStep t s (.range seen) s (.range (m :: seen)) [.tick t m]
  | done {seen} : (∀ m ∈ s.meters, m ∈ seen) → AStep t s (.range seen) { s with rw := s.rw.runlock t } .wait [.roundEnd t]

theorem arbStep_rel {t : Nat} {i : AIn} {s s' : ArbS} {l l' : AFrame} {es : List AEv}
    (h : arbStep t i s l = some (s', l', es)) : AStep t s l s' l' es := by
  unfold arbStep at h
  split at h
  all_goals try split at h
  all_goals try simp only [Option.some.injEq, Prod.mk.injEq, Option.map_eq_some_iff, reduceCtorEq, Bool.not_eq_true] at *
  all_goals first
    | (obtain ⟨rfl, rfl, rfl⟩ := h)
    | (obtain ⟨m, hm, rfl, rfl, rfl⟩ := h)
    | exact h.elim
  all_goals first
    | exact .visit (And.left ‹_›) (And.right ‹_›)
    | constructor; done
    | (constructor; first | assumption | exact rfl)

def AFrame.hold : AFrame → Hold
  | .newPend _ | .stopPend _ => .pend
  | .newInsert _ | .newTest _ | .newSet _ | .newGo _ | .newUnlock _ | .stopDelete _ | .stopUnlock _ => .write
  | .range _ => .read
  | _ => .no

def AFrame.ticker : AFrame → Bool
  | .wait | .range _ => true
  | _ => false

/-- The meter that a goroutine is making (before it is in the map). -/
def AFrame.making : AFrame → Option Nat
  | .newLock m | .newPend m | .newInsert m => some m
  | _ => none
/-- The meter that it is making and has put in the map, and that is not returned yet. -/
def AFrame.made : AFrame → Option Nat
  | .newTest m | .newSet m | .newGo m | .newUnlock m => some m
  | _ => none
/-- The meter that it stops, having won the race. -/
def AFrame.stopping : AFrame → Option Nat
  | .stopLock m | .stopPend m | .stopDelete m | .stopUnlock m => some m
  | _ => none
/-- The meter that it may be going to stop. -/
def AFrame.stop : AFrame → Option Nat
  | .stopCas m => some m
  | f => f.stopping

theorem AStep.trans {t s l s' l' es} (h : AStep t s l s' l' es) : RWMutex.Trans t s.rw l.hold s'.rw l'.hold := by
  cases h with
  | newLock h => exact .announce h
  | newPend h => exact .acquire h
  | stopLock h => exact .announce h
  | stopPend h => exact .acquire h
  | wait h => exact .rlock h
  | done _ => exact .runlock
  | newUnlock => exact .unlock
  | stopUnlock => exact .unlock
  | _ => exact .none

def gos (tr : List AEv) : Nat := tr.countP fun | .go _ => true | _ => false

theorem gos_append (a b : List AEv) : gos (a ++ b) = gos a + gos b := List.countP_append

/-- What a goroutine has to do with the flag. -/
inductive AKind where
  | set
  | go
  | unl
  | ticker
  | other
  deriving DecidableEq

def AFrame.kind : AFrame → AKind
  | .newSet _ => .set
  | .newGo _ => .go
  | .newUnlock _ => .unl
  | .wait | .range _ => .ticker
  | _ => .other

/-- About the flag; `g`: number of `go` statements; `r`: some `NewMeter` has returned. -/
structure FlagInv (started : Bool) (spawned g : Nat) (r : Prop) (k : Nat → AKind) : Prop where
  off : started = false → g = 0
  set : ∀ t, k t = .set → started = false
  go : ∀ t, k t = .go → started = true ∧ g = 0
  unl : ∀ t, k t = .unl → started = true
  on : started = true → (∀ t, k t ≠ .go) → g = 1
  ret : r → started = true ∧ ∀ t, k t ≠ .go
  one : ∀ t u, k t = .ticker → k u = .ticker → t = u
  tick : ∀ t, k t = .ticker → spawned = 0 ∧ g = 1
  notick : (∀ t, k t ≠ .ticker) → spawned = g

theorem FlagInv.le {started spawned g r k} (hi : FlagInv started spawned g r k) : g ≤ 1 := by
  cases started with
  | false => rw [hi.off rfl]; omega
  | true =>
    by_cases h : ∃ t, k t = .go
    · obtain ⟨t, h⟩ := h
      rw [(hi.go t h).2]; omega
    · rw [hi.on rfl fun t hc => h ⟨t, hc⟩]

/-- `update` at `t`. -/
theorem upd_cases {α : Type} {f : Nat → α} {t u : Nat} {x y : α} (h : Function.update f t x u = y) : (u = t ∧ x = y) ∨ (u ≠ t ∧ f u = y) := by
  rcases eq_or_ne u t with rfl | hne
  · exact .inl ⟨rfl, by simpa using h⟩
  · exact .inr ⟨hne, by rwa [Function.update_of_ne hne] at h⟩

/-- Nobody else is at the flag. -/
def Alone (k : Nat → AKind) (t : Nat) : Prop := ∀ u, u ≠ t → k u ≠ .set ∧ k u ≠ .go ∧ k u ≠ .unl

theorem FlagInv.begin {started spawned g r k t} (hi : FlagInv started spawned g r k) (hk : k t = .other) (hs : 0 < spawned) :
    FlagInv started (spawned - 1) g r (Function.update k t .ticker) := by
  have hle := hi.le
  have hno : ∀ u, k u ≠ .ticker := fun u hu => by have := (hi.tick u hu).1; omega
  have hg := hi.notick hno
  refine ⟨hi.off, ?_, ?_, ?_, ?_, ?_, ?_, ?_, ?_⟩
  · intro u hu
    rcases upd_cases hu with ⟨_, h⟩ | ⟨_, h⟩
    · simp at h
    · exact hi.set u h
  · intro u hu
    rcases upd_cases hu with ⟨_, h⟩ | ⟨_, h⟩
    · simp at h
    · exact hi.go u h
  · intro u hu
    rcases upd_cases hu with ⟨_, h⟩ | ⟨_, h⟩
    · simp at h
    · exact hi.unl u h
  · intro _ _
    omega
  · intro hr
    refine ⟨(hi.ret hr).1, fun u hu => ?_⟩
    rcases upd_cases hu with ⟨_, h⟩ | ⟨_, h⟩
    · simp at h
    · exact (hi.ret hr).2 u h
  · intro u v hu hv
    rcases upd_cases hu with ⟨h1, _⟩ | ⟨_, h⟩
    · rcases upd_cases hv with ⟨h2, _⟩ | ⟨_, h⟩
      · rw [h1, h2]
      · exact absurd h (hno v)
    · exact absurd h (hno u)
  · intro _ _
    omega
  · intro h
    exact absurd (Function.update_self t _ _) (h t)

theorem FlagInv.newTest1 {started spawned g r k t} (hi : FlagInv started spawned g r k) (hk : k t = .other) (hs : started = true) :
    FlagInv started spawned g r (Function.update k t .unl) := by
  refine ⟨hi.off, ?_, ?_, fun _ _ => hs, ?_, ?_, ?_, ?_, ?_⟩
  · intro u hu
    rcases upd_cases hu with ⟨_, h⟩ | ⟨_, h⟩
    · simp at h
    · exact hi.set u h
  · intro u hu
    rcases upd_cases hu with ⟨_, h⟩ | ⟨_, h⟩
    · simp at h
    · exact hi.go u h
  · intro hs h
    refine hi.on hs fun u hu => h u ?_
    rw [Function.update_of_ne (by rintro rfl; simp [hk] at hu)]
    exact hu
  · intro hr
    refine ⟨hs, fun u hu => ?_⟩
    rcases upd_cases hu with ⟨_, h⟩ | ⟨_, h⟩
    · simp at h
    · exact (hi.ret hr).2 u h
  · intro u v hu hv
    rcases upd_cases hu with ⟨_, h⟩ | ⟨_, hu⟩
    · simp at h
    · rcases upd_cases hv with ⟨_, h⟩ | ⟨_, hv⟩
      · simp at h
      · exact hi.one u v hu hv
  · intro u hu
    rcases upd_cases hu with ⟨_, h⟩ | ⟨_, h⟩
    · simp at h
    · exact hi.tick u h
  · intro h
    refine hi.notick fun u hu => h u ?_
    rw [Function.update_of_ne (by rintro rfl; simp [hk] at hu)]
    exact hu

theorem FlagInv.newTest0 {started spawned g r k t} (hi : FlagInv started spawned g r k) (hk : k t = .other) (hs : started = false) :
    FlagInv started spawned g r (Function.update k t .set) := by
  refine ⟨hi.off, fun _ _ => hs, ?_, ?_, ?_, ?_, ?_, ?_, ?_⟩
  · intro u hu
    rcases upd_cases hu with ⟨_, h⟩ | ⟨_, h⟩
    · simp at h
    · exact hi.go u h
  · intro u hu
    rcases upd_cases hu with ⟨_, h⟩ | ⟨_, h⟩
    · simp at h
    · exact hi.unl u h
  · intro h
    rw [hs] at h
    simp at h
  · intro hr
    have := (hi.ret hr).1
    rw [hs] at this
    simp at this
  · intro u v hu hv
    rcases upd_cases hu with ⟨_, h⟩ | ⟨_, hu⟩
    · simp at h
    · rcases upd_cases hv with ⟨_, h⟩ | ⟨_, hv⟩
      · simp at h
      · exact hi.one u v hu hv
  · intro u hu
    rcases upd_cases hu with ⟨_, h⟩ | ⟨_, h⟩
    · simp at h
    · exact hi.tick u h
  · intro h
    refine hi.notick fun u hu => h u ?_
    rw [Function.update_of_ne (by rintro rfl; simp [hk] at hu)]
    exact hu

theorem FlagInv.newSet {started spawned g r k t} (hi : FlagInv started spawned g r k) (hk : k t = .set) (ha : Alone k t) :
    FlagInv true spawned g r (Function.update k t .go) := by
  have hs := hi.set t hk
  have hg := hi.off hs
  have hnt : ∀ u, k u ≠ .ticker := fun u hu => by have := (hi.tick u hu).2; omega
  refine ⟨by simp, ?_, fun _ _ => ⟨rfl, hg⟩, fun _ _ => rfl, ?_, ?_, ?_, ?_, fun _ => hi.notick hnt⟩
  · intro u hu
    rcases upd_cases hu with ⟨_, h⟩ | ⟨hne, h⟩
    · simp at h
    · exact absurd h (ha u hne).1
  · intro _ h
    exact absurd (Function.update_self t _ _) (h t)
  · intro hr
    have := (hi.ret hr).1
    rw [hs] at this
    simp at this
  · intro u v hu hv
    rcases upd_cases hu with ⟨_, h⟩ | ⟨_, hu⟩
    · simp at h
    · exact absurd hu (hnt u)
  · intro u hu
    rcases upd_cases hu with ⟨_, h⟩ | ⟨_, h⟩
    · simp at h
    · exact absurd h (hnt u)

theorem FlagInv.newGo {started spawned g r k t} (hi : FlagInv started spawned g r k) (hk : k t = .go) (ha : Alone k t) :
    FlagInv started (spawned + 1) (g + 1) r (Function.update k t .unl) := by
  obtain ⟨hs, hg⟩ := hi.go t hk
  have hnt : ∀ u, k u ≠ .ticker := fun u hu => by have := (hi.tick u hu).2; omega
  refine ⟨fun h => ?_, ?_, ?_, fun _ _ => hs, fun _ _ => by omega, ?_, ?_, ?_, fun _ => by rw [hi.notick hnt]⟩
  · rw [hs] at h
    simp at h
  · intro u hu
    rcases upd_cases hu with ⟨_, h⟩ | ⟨hne, h⟩
    · simp at h
    · exact absurd h (ha u hne).1
  · intro u hu
    rcases upd_cases hu with ⟨_, h⟩ | ⟨hne, h⟩
    · simp at h
    · exact absurd h (ha u hne).2.1
  · intro hr
    exact absurd hk ((hi.ret hr).2 t)
  · intro u v hu hv
    rcases upd_cases hu with ⟨_, h⟩ | ⟨_, hu⟩
    · simp at h
    · exact absurd hu (hnt u)
  · intro u hu
    rcases upd_cases hu with ⟨_, h⟩ | ⟨_, h⟩
    · simp at h
    · exact absurd h (hnt u)

theorem FlagInv.newUnlock {started spawned g r k t} (hi : FlagInv started spawned g r k) (hk : k t = .unl) (ha : Alone k t) (r' : Prop) :
    FlagInv started spawned g r' (Function.update k t .other) := by
  have hs := hi.unl t hk
  have hgo : ∀ u, k u ≠ .go := fun u hu => by
    rcases eq_or_ne u t with rfl | hne
    · simp [hk] at hu
    · exact (ha u hne).2.1 hu
  refine ⟨hi.off, ?_, ?_, ?_, ?_, ?_, ?_, ?_, ?_⟩
  · intro u hu
    rcases upd_cases hu with ⟨_, h⟩ | ⟨_, h⟩
    · simp at h
    · exact hi.set u h
  · intro u hu
    rcases upd_cases hu with ⟨_, h⟩ | ⟨_, h⟩
    · simp at h
    · exact hi.go u h
  · intro u hu
    rcases upd_cases hu with ⟨_, h⟩ | ⟨_, h⟩
    · simp at h
    · exact hi.unl u h
  · exact fun _ _ => hi.on hs hgo
  · intro _
    refine ⟨hs, fun u hu => ?_⟩
    rcases upd_cases hu with ⟨_, h⟩ | ⟨_, h⟩
    · simp at h
    · exact hgo u h
  · intro u v hu hv
    rcases upd_cases hu with ⟨_, h⟩ | ⟨_, hu⟩
    · simp at h
    · rcases upd_cases hv with ⟨_, h⟩ | ⟨_, hv⟩
      · simp at h
      · exact hi.one u v hu hv
  · intro u hu
    rcases upd_cases hu with ⟨_, h⟩ | ⟨_, h⟩
    · simp at h
    · exact hi.tick u h
  · intro h
    refine hi.notick fun u hu => h u ?_
    rw [Function.update_of_ne (by rintro rfl; simp [hk] at hu)]
    exact hu

/-- About the lock and the flag. -/
structure ArbInv (s : ArbS) (ls : Nat → AFrame) (tr : List AEv) : Prop where
  mutex : s.rw.Inv fun t => (ls t).hold
  flag : FlagInv s.started s.spawned (gos tr) (∃ t m, .retNew t m ∈ tr) fun t => (ls t).kind

theorem ArbInv.init : ArbInv .init (fun _ => .idle) [] := by
  refine ⟨.free fun _ => rfl, ⟨fun _ => rfl, ?_, ?_, ?_, ?_, ?_, ?_, ?_, fun _ => rfl⟩⟩ <;> simp [AFrame.kind, ArbS.init, gos]

theorem update_comp {α β : Type} (f : α → β) (ls : Nat → α) (t : Nat) (x : α) :
    (fun u => f (Function.update ls t x u)) = Function.update (fun u => f (ls u)) t (f x) := by
  funext u
  rcases eq_or_ne u t with rfl | hne
  · simp
  · simp [Function.update_of_ne hne]

theorem ArbInv.step {s ls tr} (hi : ArbInv s ls tr) {t s' l' es} (h : AStep t s (ls t) s' l' es) :
    ArbInv s' (Function.update ls t l') (tr ++ es) := by
  refine ⟨?_, ?_⟩
  · rw [update_comp AFrame.hold]
    exact hi.mutex.trans h.trans
  have alone : (ls t).hold = .write → Alone (fun t => (ls t).kind) t := by
    intro hw u hu
    have : (ls u).hold ≠ .write := fun h => hu (hi.mutex.excl hw (.inl h))
    revert this
    simp only
    cases ls u <;> simp [AFrame.kind, AFrame.hold]
  rw [update_comp AFrame.kind]
  have hf := hi.flag
  generalize hl : ls t = l at h
  have neutral : s'.started = s.started → s'.spawned = s.spawned → l'.kind = l.kind → gos es = 0 → (∀ u m, .retNew u m ∉ es) →
      FlagInv s'.started s'.spawned (gos (tr ++ es)) (∃ t m, .retNew t m ∈ tr ++ es) (Function.update (fun u => (ls u).kind) t l'.kind) := by
    intro h1 h2 h3 h4 h5
    rw [h1, h2, h3, ← hl, gos_append, h4]
    have : Function.update (fun u => (ls u).kind) t (ls t).kind = fun u => (ls u).kind := Function.update_eq_self t (fun u => (ls u).kind)
    rw [this]
    simpa [h5] using hf
  have hk : (fun u => (ls u).kind) t = l.kind := by rw [← hl]
  cases h
  case begin h =>
    simpa [AFrame.kind] using hf.begin hk h
  case newTest1 h => simpa [AFrame.kind] using hf.newTest1 hk h
  case newTest0 h => simpa [AFrame.kind] using hf.newTest0 hk h
  case newSet => simpa [AFrame.kind] using hf.newSet hk (alone (by rw [hl]; rfl))
  case newGo =>
    have := hf.newGo hk (alone (by rw [hl]; rfl))
    rw [gos_append]
    simpa [gos, AFrame.kind] using this
  case newUnlock =>
    have := hf.newUnlock hk (alone (by rw [hl]; rfl))
    rw [gos_append]
    simpa [gos, AFrame.kind] using this _
  all_goals exact neutral rfl rfl rfl rfl (by simp)

theorem arb_inv {sched s ls tr} (h : arbMachine.run .init (fun _ => .idle) sched = some (s, ls, tr)) : ArbInv s ls tr :=
  arbMachine.induct (fun s ls tr => ArbInv s ls tr) .init (fun _ _ _ _ _ _ _ _ hi hst => hi.step (arbStep_rel hst)) sched s ls tr h

/-! ### The map of meters -/

/-- About the map. -/
structure MapInv (s : ArbS) (ls : Nat → AFrame) (tr : List AEv) : Prop where
  /-- Meters in the making are new, and different. -/
  fresh : ∀ t m, (ls t).making = some m → m < s.next ∧ m ∉ s.meters ∧ m ∉ s.returned
  uniq : ∀ t u m, (ls t).making = some m → (ls u).making = some m → t = u
  made : ∀ t m, (ls t).made = some m → m ∈ s.meters ∧ m < s.next ∧ m ∉ s.returned
  sep : ∀ t u m, (ls t).made = some m → (ls u).making ≠ some m
  uniq2 : ∀ t u m, (ls t).made = some m → (ls u).made = some m → t = u
  lt : ∀ m ∈ s.returned, m < s.next
  ltm : ∀ m ∈ s.meters, m < s.next
  ret : ∀ t m, .retNew t m ∈ tr → m ∈ s.returned
  stop : ∀ t m, (ls t).stop = some m → m ∈ s.returned ∧ .callStop t m ∈ tr
  /-- A returned meter is in the map until it is stopped. -/
  live : ∀ m ∈ s.returned, m ∈ s.meters ∨ ∃ t, .callStop t m ∈ tr
  /-- A stopped meter is not in the map. -/
  dead : ∀ t m, .retStop t m true ∈ tr → m ∉ s.meters ∧ m ∈ s.returned
  unl : ∀ t m, ls t = .stopUnlock m → m ∉ s.meters ∧ m ∈ s.returned
  nodup : s.meters.Nodup

theorem MapInv.init : MapInv .init (fun _ => .idle) [] := by
  constructor <;> simp [AFrame.making, AFrame.made, AFrame.stop, AFrame.stopping, ArbS.init]

def AFrame.unl : AFrame → Option Nat
  | .stopUnlock m => some m
  | _ => none

theorem unl_eq (l : AFrame) (m : Nat) : l = .stopUnlock m ↔ l.unl = some m := by cases l <;> simp [AFrame.unl]

set_option maxHeartbeats 2000000 in
theorem MapInv.step {s ls tr} (hi : MapInv s ls tr) {t s' l' es} (h : AStep t s (ls t) s' l' es) :
    MapInv s' (Function.update ls t l') (tr ++ es) := by
  obtain ⟨h1, h2, h3, h4, h5, h6, h7, h8, h9, h10, h11, h12, h13⟩ := hi
  have e1 : ∀ u, (Function.update ls t l' u).making = if u = t then l'.making else (ls u).making := fun u => by
    simp only [Function.update_apply]; split_ifs <;> rfl
  have e2 : ∀ u, (Function.update ls t l' u).made = if u = t then l'.made else (ls u).made := fun u => by
    simp only [Function.update_apply]; split_ifs <;> rfl
  have e3 : ∀ u, (Function.update ls t l' u).stop = if u = t then l'.stop else (ls u).stop := fun u => by
    simp only [Function.update_apply]; split_ifs <;> rfl
  have e4 : ∀ u m, (Function.update ls t l' u = .stopUnlock m) ↔ (if u = t then l'.unl else (ls u).unl) = some m := fun u m => by
    rw [unl_eq]; simp only [Function.update_apply]; split_ifs <;> rfl
  simp only [unl_eq] at h12
  have f1 := h1 t
  have f2 := h3 t
  have f3 := h9 t
  have f4 := h12 t
  generalize hl : ls t = l at h f1 f2 f3 f4
  have g1 : (ls t).making = l.making := by rw [hl]
  have g2 : (ls t).made = l.made := by rw [hl]
  clear hl
  obtain ⟨mk, hmk⟩ : ∃ mk : Nat → Option Nat, ∀ u, (ls u).making = mk u := ⟨_, fun _ => rfl⟩
  obtain ⟨md, hmd⟩ : ∃ md : Nat → Option Nat, ∀ u, (ls u).made = md u := ⟨_, fun _ => rfl⟩
  obtain ⟨st, hst⟩ : ∃ st : Nat → Option Nat, ∀ u, (ls u).stop = st u := ⟨_, fun _ => rfl⟩
  obtain ⟨un, hun⟩ : ∃ un : Nat → Option Nat, ∀ u, (ls u).unl = un u := ⟨_, fun _ => rfl⟩
  simp only [hmk, hmd, hst, hun] at h1 h2 h3 h4 h5 h9 h12 e1 e2 e3 e4 g1 g2
  clear hmk hmd hst hun
  constructor <;> (try simp only [e1, e2, e3, e4]) <;> clear e1 e2 e3 e4 <;>
    cases h <;> simp only [AFrame.making, AFrame.made, AFrame.stop, AFrame.stopping, AFrame.unl] at f1 f2 f3 f4 g1 g2 ⊢ <;>
    first
      | assumption
      | exact h13.filter _
      | grind

theorem map_inv {sched s ls tr} (h : arbMachine.run .init (fun _ => .idle) sched = some (s, ls, tr)) : MapInv s ls tr :=
  arbMachine.induct (fun s ls tr => MapInv s ls tr) .init (fun _ _ _ _ _ _ _ _ hi hst => hi.step (arbStep_rel hst)) sched s ls tr h

/-! ### Rounds -/

/-- Ticks come from the ticking goroutine. -/
theorem tick_ticker {sched s ls tr} (h : arbMachine.run .init (fun _ => .idle) sched = some (s, ls, tr)) :
    ∀ t m, .tick t m ∈ tr → (ls t).kind = .ticker := by
  refine arbMachine.induct (fun _ ls tr => ∀ t m, .tick t m ∈ tr → (ls t).kind = .ticker) (by simp) ?_ sched s ls tr h
  intro s ls tr t i s' l' es hi hst u m hm
  replace hst := arbStep_rel hst
  rw [List.mem_append] at hm
  generalize hl : ls t = l at hst
  have := hi u m
  cases hst <;> simp only [Function.update_apply, List.mem_cons] at * <;> grind [AFrame.kind]

/-- The events of a step are the goroutine's. -/
theorem AStep.mine {t s l s' l' es} (h : AStep t s l s' l' es) {u : Nat} (hu : u ≠ t) :
    es.filterMap (Spec.tickOf u) = [] ∧ .roundBegin u ∉ es ∧ .roundEnd u ∉ es := by
  cases h <;> simp [Spec.tickOf, hu, Ne.symm hu]

/-- Only the holder of the write lock changes the map. -/
theorem AStep.meters {t s l s' l' es} (h : AStep t s l s' l' es) : s'.meters = s.meters ∨ l.hold = .write := by
  cases h <;> simp [AFrame.hold]

/-- The round that goroutine `t` is in. -/
def InRound (s : ArbS) (tr : List AEv) (t : Nat) (seen : List Nat) : Prop :=
  ∃ a b, tr = a ++ .roundBegin t :: b ∧ b.filterMap (Spec.tickOf t) = seen.reverse ∧ .roundBegin t ∉ b ∧ .roundEnd t ∉ b ∧ seen.Nodup ∧
    (∀ m ∈ seen, m ∈ s.meters) ∧ (∀ u m, .retNew u m ∈ a → m ∈ s.meters ∨ ∃ v, .callStop v m ∈ a) ∧ (∀ v m, .retStop v m true ∈ a → m ∉ s.meters)

theorem round_inv {sched s ls tr} (h : arbMachine.run .init (fun _ => .idle) sched = some (s, ls, tr)) :
    ∀ t seen, ls t = .range seen → InRound s tr t seen := by
  refine arbMachine.induct_reach (fun s ls tr => ∀ t seen, ls t = .range seen → InRound s tr t seen) (by simp) ?_ sched s ls tr h
  intro s ls tr t i s' l' es ⟨sched, hr⟩ hi hst u seen hu
  replace hst := arbStep_rel hst
  have hmx := (arb_inv hr).mutex
  rcases upd_cases hu with ⟨rfl, hl'⟩ | ⟨hne, hu⟩
  · generalize hl : ls u = l at hst
    subst hl'
    cases hst with
    | wait hw =>
      have hmap := map_inv hr
      exact ⟨tr, [], by simp, by simp, by simp, by simp, by simp, by simp, fun u m hm => hmap.live m (hmap.ret u m hm), fun v m hm => (hmap.dead v m hm).1⟩
    | visit h1 h2 =>
      rename_i m seen
      obtain ⟨a, b, rfl, hb, h3, h4, h5, h6, h7, h8⟩ := hi u seen hl
      refine ⟨a, b ++ [.tick u m], by simp, by simp [hb, Spec.tickOf], by simpa using h3, by simpa using h4, List.nodup_cons.2 ⟨h2, h5⟩, ?_, h7, h8⟩
      intro x hx
      rcases List.mem_cons.1 hx with rfl | hx
      · exact h1
      · exact h6 x hx
  · obtain ⟨a, b, rfl, hb, h3, h4, h5, h6, h7, h8⟩ := hi u seen hu
    have hm : s'.meters = s.meters := by
      rcases hst.meters with h | h
      · exact h
      · exact absurd (hmx.excl h (u := u) (.inr (by rw [hu]; rfl))) hne
    obtain ⟨g1, g2, g3⟩ := hst.mine hne
    refine ⟨a, b ++ es, by simp, by simp [hb, g1], by simp [h3, g2], by simp [h4, g3], h5, ?_, ?_, ?_⟩ <;> rw [hm] <;> assumption

end GoMetrics
