import Verif.Spec.Runtime
import Verif.Lemmas.Runtime
import Mathlib.Algebra.Order.Group.Int.Sum

/-! Properties of the runtime statistics (C69–C71, C73, C74). -/

set_option linter.unusedSectionVars false
set_option linter.unusedSimpArgs false

namespace GoMetrics
open Spec

variable {F : Type}

theorem given_append {K : Type} [DecidableEq K] (k : K) (a b : List (K × Call F)) : given k (a ++ b) = given k a ++ given k b := by
  simp [given, List.filterMap_append]

theorem given_pauses (v : RtVars) (x : RtInput) :
    given .pauseNs (rtUpdates v x : List (RtField × Call F)) = (pauseIndices v.numGC x.stats.numGC).map fun i => (x.stats.pauseNs i).toInt64 := by
  have : given .pauseNs ((pauseIndices v.numGC x.stats.numGC).map (fun i => ((.pauseNs : RtField), (.update (x.stats.pauseNs i).toInt64 : Call F)))) =
      (pauseIndices v.numGC x.stats.numGC).map fun i => (x.stats.pauseNs i).toInt64 := by
    induction pauseIndices v.numGC x.stats.numGC with
    | nil => rfl
    | cons a l ih => simpa [given] using ih
  unfold rtUpdates
  rw [given_append, given_append, this]
  simp [given]

theorem loopFrom_lt {i n : UInt32} {k : Nat} (hk : k ∈ loopFrom i n) : k < n.toNat := by
  simp only [loopFrom, List.mem_range'_1] at hk
  omega

/-- No index is outside the 256 elements of `PauseNs`. -/
theorem C69_bounds (a b : UInt32) : ∀ i ∈ pauseIndices a b, i < 256 := by
  intro i hi
  have h256 : (256 : UInt32).toNat = 256 := rfl
  have hb : (b % 256).toNat < 256 := by rw [UInt32.toNat_mod, h256]; omega
  simp only [pauseIndices] at hi
  split at hi
  · have := loopFrom_lt hi; omega
  · rw [List.mem_append] at hi
    rcases hi with hi | hi
    · split at hi
      · have := loopFrom_lt hi; omega
      · simp at hi
    · have := loopFrom_lt hi; omega

/-- Reading the ring from index `i` on gives consecutive pauses, starting with number `a`. -/
theorem ring_read {pause : Nat → UInt64} {n : Nat} {m : MemStats} (hs : Shows pause n m) (a i c : Nat) (hi : a % 256 = i) (hc : i + c ≤ 256)
    (h1 : n ≤ a + 256) (h2 : a + c ≤ n) : (List.range' i c).map (fun j => (m.pauseNs j).toInt64) = pausesFrom pause a (a + c) := by
  unfold pausesFrom
  apply List.ext_getElem
  · simp
  · intro j hj hj'
    simp only [List.length_map, List.length_range'] at hj
    simp only [List.getElem_map, List.getElem_range', Nat.one_mul]
    have := hs.2 (a + j) (by omega) (by omega)
    rw [← this]
    congr 2
    omega

theorem pausesFrom_append (pause : Nat → UInt64) {a b c : Nat} (h1 : a ≤ b) (h2 : b ≤ c) : pausesFrom pause a b ++ pausesFrom pause b c = pausesFrom pause a c := by
  unfold pausesFrom
  rw [← List.map_append]
  congr 1
  have := List.range'_append_1 (s := a) (m := b - a) (n := c - b)
  rw [show a + (b - a) = b by omega, show b - a + (c - b) = c - a by omega] at this
  exact this

/-- C69, one capture: when fewer than 2^32 collections happened since the previous capture (or since the start, at the first), the histogram of pauses is
given the pauses of exactly these, in order if fewer than 256, and otherwise exactly the 256 latest, each once. -/
theorem C69_capture (pause : Nat → UInt64) (n0 n : Nat) (v : RtVars) (x : RtInput) (hv : v.numGC.toNat = n0 % 2 ^ 32) (h0 : n0 ≤ n) (hn : n - n0 < 2 ^ 32)
    (hs : Shows pause n x.stats) :
    (n < n0 + 256 → given .pauseNs (rtUpdates v x : List (RtField × Call F)) = pausesFrom pause n0 n) ∧
    (n0 + 256 ≤ n → (given .pauseNs (rtUpdates v x : List (RtField × Call F))).Perm (pausesFrom pause (n - 256) n)) := by
  rw [given_pauses]
  obtain ⟨hN, -⟩ := id hs
  have h256 : (256 : UInt32).toNat = 256 := rfl
  have hd : (x.stats.numGC - v.numGC).toNat = n - n0 := by
    rw [UInt32.toNat_sub, hN, hv]
    omega
  have hi : (v.numGC % 256).toNat = n0 % 256 := by rw [UInt32.toNat_mod, hv, h256]; omega
  have hii : (x.stats.numGC % 256).toNat = n % 256 := by rw [UInt32.toNat_mod, hN, h256]; omega
  have hge : (x.stats.numGC - v.numGC ≥ 256) ↔ n0 + 256 ≤ n := by
    rw [ge_iff_le, UInt32.le_iff_toNat_le, hd, h256]; omega
  have hgt : (v.numGC % 256 > x.stats.numGC % 256) ↔ n % 256 < n0 % 256 := by
    rw [gt_iff_lt, UInt32.lt_iff_toNat_lt, hi, hii]
  simp only [pauseIndices, hge, hgt]
  constructor
  · intro hlt
    rw [if_neg (by omega)]
    by_cases hc : n % 256 < n0 % 256
    · rw [if_pos hc, if_pos hc, List.map_append]
      simp only [loopFrom, hi, hii, h256]
      have e0 : (0 : UInt32).toNat = 0 := rfl
      rw [e0, ring_read hs n0 _ _ rfl (by omega) (by omega) (by omega),
        ring_read hs (n0 + (256 - n0 % 256)) 0 (n % 256 - 0) (by omega) (by omega) (by omega) (by omega), pausesFrom_append _ (by omega) (by omega)]
      congr 1
      omega
    · rw [if_neg hc, if_neg hc, List.nil_append]
      simp only [loopFrom, hi, hii]
      rw [ring_read hs n0 _ _ rfl (by omega) (by omega) (by omega)]
      congr 1
      omega
  · intro hge'
    rw [if_pos hge']
    simp only [loopFrom, h256]
    have e0 : (0 : UInt32).toNat = 0 := rfl
    rw [e0]
    have hsplit : List.range' 0 (256 - 0) = List.range' 0 (n % 256) ++ List.range' (n % 256) (256 - n % 256) := by
      have := List.range'_append_1 (s := 0) (m := n % 256) (n := 256 - n % 256)
      rw [Nat.zero_add] at this
      rw [this]
      congr 1
      omega
    rw [hsplit, List.map_append]
    refine List.perm_append_comm.trans ?_
    rw [ring_read hs (n - 256) (n % 256) _ (by omega) (by omega) (by omega) (by omega),
      ring_read hs (n - 256 + (256 - n % 256)) 0 (n % 256) (by omega) (by omega) (by omega) (by omega), pausesFrom_append _ (by omega) (by omega)]
    rw [show n - 256 + (256 - n % 256) + n % 256 = n by omega]

/-- C69: from any capture on (`n0 = 0`: from the start of the program), over any number of captures with at most 256 collections in between, the
histogram is given the pause of every collection exactly once. -/
theorem C69_history (pause : Nat → UInt64) (n0 : Nat) (v : RtVars) (l : List (Nat × RtInput)) (hv : v.numGC.toNat = n0 % 2 ^ 32) (hl : Frequent pause n0 l) :
    (given .pauseNs (rtCaptures v (l.map Prod.snd) : List (RtField × Call F))).Perm (pausesFrom pause n0 (lastOr n0 (l.map Prod.fst))) := by
  have key : ∀ (l : List (Nat × RtInput)) (n0 : Nat) (v : RtVars), v.numGC.toNat = n0 % 2 ^ 32 → Frequent pause n0 l →
      n0 ≤ lastOr n0 (l.map Prod.fst) ∧
      (given .pauseNs (rtCaptures v (l.map Prod.snd) : List (RtField × Call F))).Perm (pausesFrom pause n0 (lastOr n0 (l.map Prod.fst))) := by
    intro l
    induction l with
    | nil => intro n0 v _ _; exact ⟨le_refl _, by simp [rtCaptures, given, pausesFrom, lastOr]⟩
    | cons e l ih =>
      obtain ⟨n, x⟩ := e
      rintro n0 v hv ⟨h1, h2, hs, hl⟩
      obtain ⟨hle, hp⟩ := ih n (rtAfter x) hs.1 hl
      have hlast : lastOr n0 (((n, x) :: l).map Prod.fst) = lastOr n (l.map Prod.fst) := by
        simp [lastOr, List.getLast?_cons]
      rw [hlast]
      refine ⟨by omega, ?_⟩
      show (given .pauseNs (rtUpdates v x ++ rtCaptures (rtAfter x) (l.map Prod.snd))).Perm _
      rw [given_append, ← pausesFrom_append pause h1 hle]
      refine List.Perm.append ?_ hp
      obtain ⟨c1, c2⟩ := C69_capture (F := F) pause n0 n v x hv h1 (by omega) hs
      by_cases hc : n < n0 + 256
      · rw [c1 hc]
      · have := c2 (by omega)
        rwa [show n - 256 = n0 by omega] at this
  exact (key l n0 v hv hl).2

/-- The limit of C69: with exactly 2^32 collections since the previous capture (or any multiple), nothing is recorded. -/
theorem C69_wrap (n0 k : Nat) (v : RtVars) (x : RtInput) (hv : v.numGC.toNat = n0 % 2 ^ 32) (pause : Nat → UInt64) (hs : Shows pause (n0 + k * 2 ^ 32) x.stats) :
    given .pauseNs (rtUpdates v x : List (RtField × Call F)) = [] := by
  rw [given_pauses]
  have : x.stats.numGC = v.numGC := by
    apply UInt32.toNat_inj.1
    rw [hs.1, hv]; omega
  rw [this]
  have h : ∀ a : UInt32, pauseIndices a a = [] := by
    intro a
    have h0 : ¬ ((0 : UInt32) ≥ 256) := by decide
    simp [pauseIndices, loopFrom, h0]
  rw [h]; rfl

/-- The statistics after `n` collections that all paused for 5 ns, as the runtime of a program keeps them. -/
def rtExample (n : Nat) : RtInput := { stats := { numGC := .ofNat n, frees := .ofNat (10 * n), pauseNs := fun i => if i < n ∨ 256 ≤ n then 5 else 0 } }

theorem rtExample_shows (n : Nat) : Shows (fun _ => 5) n (rtExample n).stats := by
  refine ⟨by simp [rtExample], fun k hk h => ?_⟩
  show (if k % 256 < n ∨ 256 ≤ n then (5 : UInt64) else 0) = 5
  rw [if_pos]
  have := Nat.mod_le k 256
  omega

/-- Captures after 3, 259 and 300 collections. -/
example : Frequent (fun _ => 5) 0 [(3, rtExample 3), (259, rtExample 259), (300, rtExample 300)] :=
  ⟨by omega, by omega, rtExample_shows 3, by omega, by omega, rtExample_shows 259, by omega, by omega, rtExample_shows 300, trivial⟩
example : (given .pauseNs (rtCaptures {} [rtExample 3, rtExample 259, rtExample 300] : List (RtField × Call F))).length = 300 := by
  have := (C69_history (F := F) (fun _ => 5) 0 {} [(3, rtExample 3), (259, rtExample 259), (300, rtExample 300)] rfl
    ⟨by omega, by omega, rtExample_shows 3, by omega, by omega, rtExample_shows 259, by omega, by omega, rtExample_shows 300, trivial⟩).length_eq
  exact this.trans (by rw [pausesFrom, List.length_map, List.length_range']; rfl)
example : pauseIndices 254 258 = [254, 255, 0, 1] := by decide
example : pauseIndices 4294967294 1 = [254, 255, 0] := by decide

/-! ### C70 -/

theorem delta_sum (k : RtField) (bound : Nat) (d : RtVars → RtInput → Int64) (Rv : RtVars → Nat → Prop) (Rx : RtInput → Nat → Prop)
    (hg : ∀ v x, given k (rtUpdates v x : List (RtField × Call F)) = [d v x])
    (hd : ∀ v x n n', Rv v n → Rx x n' → n ≤ n' → n' < n + bound → (d v x).toInt = (n' : Int) - n) (hr : ∀ x n, Rx x n → Rv (rtAfter x) n)
    (l : List (Nat × RtInput)) (n0 : Nat) (v : RtVars) (hv : Rv v n0) (hl : ∀ e ∈ l, Rx e.2 e.1) (hgr : Grows bound n0 (l.map Prod.fst)) :
    ((given k (rtCaptures v (l.map Prod.snd) : List (RtField × Call F))).map Int64.toInt).sum = (lastOr n0 (l.map Prod.fst) : Int) - n0 := by
  induction l generalizing n0 v with
  | nil => simp [rtCaptures, given, lastOr]
  | cons e l ih =>
    obtain ⟨n, x⟩ := e
    obtain ⟨h1, h2, h3⟩ := hgr
    have hlast : lastOr n0 (((n, x) :: l).map Prod.fst) = lastOr n (l.map Prod.fst) := by
      simp [lastOr, List.getLast?_cons]
    have hx := hl (n, x) (by simp)
    have := ih n (rtAfter x) (hr x n hx) (fun e he => hl e (by simp [he])) h3
    show ((given k (rtUpdates v x ++ rtCaptures (rtAfter x) (l.map Prod.snd) : List (RtField × Call F))).map Int64.toInt).sum = _
    rw [given_append, hg, hlast, List.map_append, List.sum_append, this]
    simp only [List.map_cons, List.map_nil, List.sum_cons, List.sum_nil]
    rw [hd v x n0 n hv hx h1 h2]
    omega

theorem toInt_toInt64 (a : UInt64) : a.toInt64.toInt = (a.toNat : Int).bmod (2 ^ 64) := BitVec.toInt_eq_toNat_bmod a.toBitVec

theorem delta64 (a b : UInt64) (n n' : Nat) (ha : a.toNat = n % 2 ^ 64) (hb : b.toNat = n' % 2 ^ 64) (h1 : n ≤ n') (h2 : n' < n + 2 ^ 63) :
    (b - a).toInt64.toInt = (n' : Int) - n := by
  have : (b - a).toNat = n' - n := by rw [UInt64.toNat_sub, ha, hb]; omega
  rw [toInt_toInt64, this, Int.bmod_eq_of_le_mul_two] <;> omega

theorem delta32 (a b : UInt32) (n n' : Nat) (ha : a.toNat = n % 2 ^ 32) (hb : b.toNat = n' % 2 ^ 32) (h1 : n ≤ n') (h2 : n' < n + 2 ^ 32) :
    (b - a).toUInt64.toInt64.toInt = (n' : Int) - n := by
  have : (b - a).toNat = n' - n := by rw [UInt32.toNat_sub, ha, hb]; omega
  rw [toInt_toInt64, UInt32.toNat_toUInt64, this, Int.bmod_eq_of_le_mul_two] <;> omega

/-- C70 for `Frees`: the runtime's count is `n0` at the first moment and `l.map fst` at the captures, kept in 64 bits; it grows by less than 2^63 from
one to the next. The reported values add up to the whole change. -/
theorem C70_frees (l : List (Nat × RtInput)) (n0 : Nat) (v : RtVars) (hv : v.frees.toNat = n0 % 2 ^ 64) (hl : ∀ e ∈ l, e.2.stats.frees.toNat = e.1 % 2 ^ 64)
    (hg : Grows (2 ^ 63) n0 (l.map Prod.fst)) :
    ((given .frees (rtCaptures v (l.map Prod.snd) : List (RtField × Call F))).map Int64.toInt).sum = (lastOr n0 (l.map Prod.fst) : Int) - n0 :=
  delta_sum .frees (2 ^ 63) (fun v x => (x.stats.frees - v.frees).toInt64) (fun v n => v.frees.toNat = n % 2 ^ 64) (fun x n => x.stats.frees.toNat = n % 2 ^ 64)
    (fun v x => by simp [given, rtUpdates, List.filterMap_append, List.filterMap_map])
    (fun v x n n' ha hb h1 h2 => delta64 _ _ n n' ha hb h1 h2) (fun x n h => h) l n0 v hv hl hg

/-- C70 for `Lookups`. -/
theorem C70_lookups (l : List (Nat × RtInput)) (n0 : Nat) (v : RtVars) (hv : v.lookups.toNat = n0 % 2 ^ 64) (hl : ∀ e ∈ l, e.2.stats.lookups.toNat = e.1 % 2 ^ 64)
    (hg : Grows (2 ^ 63) n0 (l.map Prod.fst)) :
    ((given .lookups (rtCaptures v (l.map Prod.snd) : List (RtField × Call F))).map Int64.toInt).sum = (lastOr n0 (l.map Prod.fst) : Int) - n0 :=
  delta_sum .lookups (2 ^ 63) (fun v x => (x.stats.lookups - v.lookups).toInt64) (fun v n => v.lookups.toNat = n % 2 ^ 64) (fun x n => x.stats.lookups.toNat = n % 2 ^ 64)
    (fun v x => by simp [given, rtUpdates, List.filterMap_append, List.filterMap_map])
    (fun v x n n' ha hb h1 h2 => delta64 _ _ n n' ha hb h1 h2) (fun x n h => h) l n0 v hv hl hg

/-- C70 for `Mallocs`. -/
theorem C70_mallocs (l : List (Nat × RtInput)) (n0 : Nat) (v : RtVars) (hv : v.mallocs.toNat = n0 % 2 ^ 64) (hl : ∀ e ∈ l, e.2.stats.mallocs.toNat = e.1 % 2 ^ 64)
    (hg : Grows (2 ^ 63) n0 (l.map Prod.fst)) :
    ((given .mallocs (rtCaptures v (l.map Prod.snd) : List (RtField × Call F))).map Int64.toInt).sum = (lastOr n0 (l.map Prod.fst) : Int) - n0 :=
  delta_sum .mallocs (2 ^ 63) (fun v x => (x.stats.mallocs - v.mallocs).toInt64) (fun v n => v.mallocs.toNat = n % 2 ^ 64) (fun x n => x.stats.mallocs.toNat = n % 2 ^ 64)
    (fun v x => by simp [given, rtUpdates, List.filterMap_append, List.filterMap_map])
    (fun v x n n' ha hb h1 h2 => delta64 _ _ n n' ha hb h1 h2) (fun x n h => h) l n0 v hv hl hg

/-- C70 for `NumGC`, kept in 32 bits: fewer than 2^32 collections from one capture to the next. -/
theorem C70_numGC (l : List (Nat × RtInput)) (n0 : Nat) (v : RtVars) (hv : v.numGC.toNat = n0 % 2 ^ 32) (hl : ∀ e ∈ l, e.2.stats.numGC.toNat = e.1 % 2 ^ 32)
    (hg : Grows (2 ^ 32) n0 (l.map Prod.fst)) :
    ((given .numGC (rtCaptures v (l.map Prod.snd) : List (RtField × Call F))).map Int64.toInt).sum = (lastOr n0 (l.map Prod.fst) : Int) - n0 :=
  delta_sum .numGC (2 ^ 32) (fun v x => (x.stats.numGC - v.numGC).toUInt64.toInt64) (fun v n => v.numGC.toNat = n % 2 ^ 32) (fun x n => x.stats.numGC.toNat = n % 2 ^ 32)
    (fun v x => by simp [given, rtUpdates, List.filterMap_append, List.filterMap_map])
    (fun v x n n' ha hb h1 h2 => delta32 _ _ n n' ha hb h1 h2) (fun x n h => h) l n0 v hv hl hg

/-- C70 for `NumCgoCall`, an int64 in the runtime: its values fit. -/
theorem C70_numCgoCall (l : List (Nat × RtInput)) (n0 : Nat) (v : RtVars) (hv : v.numCgoCalls.toInt = n0) (hl : ∀ e ∈ l, e.2.numCgoCall.toInt = e.1)
    (hg : Grows (2 ^ 63) n0 (l.map Prod.fst)) :
    ((given .numCgoCall (rtCaptures v (l.map Prod.snd) : List (RtField × Call F))).map Int64.toInt).sum = (lastOr n0 (l.map Prod.fst) : Int) - n0 :=
  delta_sum .numCgoCall (2 ^ 63) (fun v x => x.numCgoCall - v.numCgoCalls) (fun v n => v.numCgoCalls.toInt = n) (fun x n => x.numCgoCall.toInt = n)
    (fun v x => by simp [given, rtUpdates, List.filterMap_append, List.filterMap_map])
    (fun v x n n' ha hb h1 h2 => by
      show (x.numCgoCall - v.numCgoCalls).toInt = _
      rw [Int64.toInt_sub, ha, hb, Int.bmod_eq_of_le_mul_two] <;> omega) (fun x n h => h) l n0 v hv hl hg

/-- The counts wrap around between the second and the third capture. -/
example : Grows (2 ^ 32) 0 [5, 4000000000, 4294967300] ∧ (rtExample 4294967300).stats.numGC = 4 := ⟨by simp [Grows], by decide⟩
example : given .numGC (rtCaptures {} [rtExample 5, rtExample 4000000000, rtExample 4294967300] : List (RtField × Call F)) = [5, 3999999995, 294967300] := by
  simp [given, rtCaptures, rtUpdates, rtAfter, List.filterMap_append, List.filterMap_map, rtExample]

/-! ### C71 -/

section Registration
variable [GoFloat F] [GoSqrt F] [GoExp F]

theorem is_metricKind {t : StatKind} {o : Obj F} (h : t.is o = true) : metricKind o = true := by
  cases t <;> cases o <;> simp_all [Spec.StatKind.is, metricKind]

theorem registerOnce_spec {K : Type} [DecidableEq K] (kind : K → StatKind) (nameOf : K → String) (new : Env F → K → Act F Ref)
    (hn : ∀ env k (w : World F), w.Ok → ∃ w1 r, new env k w = (w1, .ok r) ∧ Made (kind k) w w1 r) (fields : List K) (names : List (String × K))
    (hf : fields.Nodup) (hall : ∀ k, k ∈ fields) (hnd : (names.map fun e => bytes e.1).Nodup) (hnm : ∀ k, (nameOf k, k) ∈ names)
    (hmn : ∀ e ∈ names, e.1 = nameOf e.2) (w : World F) (hw : w.Ok) (env : Env F) (g : Reg) (id : Nat) (hb : base g = some id) (s : Globals K) (hs : s.done = false) :
    ∃ w' m, registerOnce env g (new env) fields names s w = (w', .ok { done := true, metrics := m }) ∧
      (∀ k, gets w id (baseName g (bytes (nameOf k))) = none → ∃ r o, m k = some r ∧ gets w' id (baseName g (bytes (nameOf k))) = some r ∧
        w'.objs r = some o ∧ (kind k).is o = true) ∧
      (∀ id' name, (id' ≠ id ∨ gets w id' name ≠ none ∨ ∀ k, name ≠ baseName g (bytes (nameOf k))) → gets w' id' name = gets w id' name) ∧
      (w.useNil = false → Good kind w' m) ∧ ∀ k r, m k = some r → statOfMetric w' r = (0, 0) := by
  obtain ⟨w1, m, e1, a, -⟩ := assignFields_spec kind (new env) (hn env) fields hf s.metrics w hw
  have hgets : ∀ id' name, gets w1 id' name = gets w id' name := by
    intro id' name
    rw [gets_eq, gets_eq, a.regs.1]
  obtain ⟨w2, e2, e3, e4, e5⟩ := registerFields_spec env g id hb m names hnd w1 fun e he => by
    obtain ⟨r, h1, -, ⟨o, h2, h3⟩, -⟩ := a.all e.2 (hall e.2)
    exact ⟨r, o, h1, h2, is_metricKind h3⟩
  have hobjs : w2.objs = w1.objs := by rw [e3]
  have hok : w2.Ok := by
    have hregs : Safe (fun _ => True) (fun _ => True) (registerFields env g m names : Act F Unit) := by
      clear e2 e4 e5 hnd hnm hmn
      induction names with
      | nil => exact safe_pure ()
      | cons e l ih => exact safe_bind stable_true (regCall_safe env g _ (.inr rfl)) fun _ => ih
    have := (hregs w1 a.ok trivial).1
    rw [e2] at this
    exact this
  refine ⟨w2, m, ?_, ?_, ?_, ?_, ?_⟩
  · rw [registerOnce, hs]
    show (assignFields (new env) fields s.metrics >>= fun m => registerFields env g m names >>= fun _ => pure _) w = _
    rw [act_bind, e1]
    show (registerFields env g m names >>= fun _ => pure _) w1 = _
    rw [act_bind, e2]
    rfl
  · intro k hfree
    obtain ⟨r, h1, -, ⟨o, h2, h3⟩, -⟩ := a.all k (hall k)
    refine ⟨r, o, h1, ?_, by rw [hobjs]; exact h2, h3⟩
    rw [e4 (nameOf k, k) (hnm k) (by rw [hgets]; exact hfree)]
    exact h1
  · intro id' name h
    rw [e5 id' name, hgets]
    rcases h with h | h | h
    · exact .inl h
    · exact .inr (.inl (by rw [hgets]; exact h))
    · exact .inr (.inr fun e he => by rw [hmn e he]; exact h e.2)
  · intro hu
    have hp : ∀ r x, partOf w2 r x ↔ partOf w1 r x := fun r x => partOf_same (fun y _ => by rw [hobjs]) x
    refine ⟨hok, fun k => ?_, fun k k' hne r r' h1 h2 x hx => ?_⟩
    · obtain ⟨r, h1, -, -, h2, -⟩ := a.all k (hall k)
      exact ⟨r, h1, (h2 hu).same fun y _ => by rw [hobjs]⟩
    · rw [hp] at hx ⊢
      exact a.apart k (hall k) k' (hall k') hne r r' h1 h2 x hx
  · intro k r hr
    obtain ⟨r', h1, -, -, -, h2⟩ := a.all k (hall k)
    obtain rfl : r = r' := by rw [hr] at h1; simpa using h1
    exact (stat_same fun y _ => by rw [hobjs]).trans h2

theorem registerRuntime_spec (w : World F) (hw : w.Ok) (env : Env F) (g : Reg) (id : Nat) (hb : base g = some id) (s : Globals RtField) (hs : s.done = false) :
    ∃ w' m, registerRuntime env g s w = (w', .ok { done := true, metrics := m }) ∧
      (∀ k, gets w id (baseName g (bytes (rtName k))) = none → ∃ r o, m k = some r ∧ gets w' id (baseName g (bytes (rtName k))) = some r ∧
        w'.objs r = some o ∧ (RtField.kind k).is o = true) ∧
      (∀ id' name, (id' ≠ id ∨ gets w id' name ≠ none ∨ ∀ k, name ≠ baseName g (bytes (rtName k))) → gets w' id' name = gets w id' name) ∧
      (w.useNil = false → Good RtField.kind w' m) ∧ ∀ k r, m k = some r → statOfMetric w' r = (0, 0) :=
  registerOnce_spec RtField.kind rtName rtNew rtNew_made rtFields rtNames (by decide) (fun k => by cases k <;> decide) (by decide +kernel)
    (fun k => by cases k <;> simp [rtName, rtNames]) (by simp [rtNames, rtName]) w hw env g id hb s hs

/-- C71, the first registry given, in any reachable state: each runtime metric is registered in it under its documented name, unless the name is taken
(then it is left alone); nothing else changes in any registry. -/
theorem C71_first_partial (h : List (Env F × Op F)) (env : Env F) (g : Reg) (id : Nat) (hb : base g = some id) (s : Globals RtField) (hs : s.done = false) :
    let w : World F := World.init.run h
    ∃ w' m, registerRuntime env g s w = (w', .ok { done := true, metrics := m }) ∧
      (∀ k, gets w id (baseName g (bytes (rtName k))) = none → ∃ r o, m k = some r ∧ gets w' id (baseName g (bytes (rtName k))) = some r ∧
        w'.objs r = some o ∧ (RtField.kind k).is o = true) ∧
      (∀ id' name, (id' ≠ id ∨ gets w id' name ≠ none ∨ ∀ k, name ≠ baseName g (bytes (rtName k))) → gets w' id' name = gets w id' name) := by
  intro w
  obtain ⟨w', m, h1, h2, h3, -⟩ := registerRuntime_spec w (run_ok h) env g id hb s hs
  exact ⟨w', m, h1, h2, h3⟩

/-- C71 for `RegisterDebugGCStats`. -/
theorem C71_debug_first_partial (h : List (Env F × Op F)) (env : Env F) (g : Reg) (id : Nat) (hb : base g = some id) (s : Globals DbgField) (hs : s.done = false) :
    let w : World F := World.init.run h
    ∃ w' m, registerDebug env g s w = (w', .ok { done := true, metrics := m }) ∧
      (∀ k, gets w id (baseName g (bytes (dbgName k))) = none → ∃ r o, m k = some r ∧ gets w' id (baseName g (bytes (dbgName k))) = some r ∧
        w'.objs r = some o ∧ (DbgField.kind k).is o = true) ∧
      (∀ id' name, (id' ≠ id ∨ gets w id' name ≠ none ∨ ∀ k, name ≠ baseName g (bytes (dbgName k))) → gets w' id' name = gets w id' name) := by
  intro w
  obtain ⟨w', m, h1, h2, h3, -⟩ := registerOnce_spec DbgField.kind dbgName dbgNew dbgNew_made dbgFields dbgNames (by decide) (fun k => by cases k <;> decide) (by decide +kernel)
    (fun k => by cases k <;> simp [dbgName, dbgNames]) (by simp [dbgNames, dbgName]) w (run_ok h) env g id hb s hs
  exact ⟨w', m, h1, h2, h3⟩

/-- C71 is false for the second registry: whatever the first was, nothing is registered. (Also after `Unregister` of the metrics in the first.) -/
theorem C71_second (env : Env F) (g : Reg) (w : World F) :
    (∀ s : Globals RtField, s.done = true → registerRuntime env g s w = (w, .ok s)) ∧
    (∀ s : Globals DbgField, s.done = true → registerDebug env g s w = (w, .ok s)) :=
  ⟨fun s hs => by simp only [registerRuntime, registerOnce, hs, if_true]; rfl, fun s hs => by simp only [registerDebug, registerOnce, hs, if_true]; rfl⟩

/-- C71 does not hold: a program that gives two empty registries, one after the other, finds none of the metrics in the second. -/
theorem C71_refuted (env env' : Env F) : ∃ w1 s1 w2 s2, registerRuntime env (.std 1) {} (World.init : World F) = (w1, .ok s1) ∧
    registerRuntime env' (.std 2) s1 w1 = (w2, .ok s2) ∧ ∀ k, gets w2 2 (bytes (rtName k)) = none := by
  obtain ⟨w', m, h1, h2, h3⟩ := C71_first_partial (F := F) [] env (.std 1) 1 rfl {} rfl
  refine ⟨w', _, w', _, h1, (C71_second env' (.std 2) w').1 _ rfl, fun k => ?_⟩
  rw [h3 2 _ (.inl (by decide))]
  rw [gets_eq]
  rfl

/-- The names are those of the base registry with the prefixes of the given one. -/
example (env : Env F) : ∃ w' m r o, registerRuntime env (.prefixed (.std 0) [97, 46]) {} (World.init : World F) = (w', .ok { done := true, metrics := m }) ∧
    m .pauseNs = some r ∧ gets w' 0 ([97, 46] ++ bytes "runtime.MemStats.PauseNs") = some r ∧ w'.objs r = some (.hist o) := by
  obtain ⟨w', m, h1, h2, -⟩ := C71_first_partial (F := F) [] env (.prefixed (.std 0) [97, 46]) 0 rfl {} rfl
  obtain ⟨r, o, h3, h4, h5, h6⟩ := h2 .pauseNs (by rw [gets_eq]; rfl)
  cases o with
  | hist o => exact ⟨w', m, r, o, h1, h3, h4, h5⟩
  | _ => simp [Spec.StatKind.is, RtField.kind] at h6

/-! ### C74 -/

theorem fits_rtUpdates (v : RtVars) (x : RtInput) : ∀ u ∈ (rtUpdates v x : List (RtField × Call F)), (RtField.kind u.1).fits u.2 = true := by
  intro u hu
  simp only [rtUpdates, List.mem_append, List.mem_map] at hu
  rcases hu with (hu | ⟨i, -, rfl⟩) | hu
  · simp only [List.mem_cons, List.not_mem_nil, or_false] at hu
    rcases hu with rfl | rfl | rfl | rfl | rfl | rfl | rfl | rfl | rfl | rfl | rfl | rfl | rfl | rfl | rfl | rfl | rfl | rfl | rfl | rfl | rfl | rfl <;> rfl
  · rfl
  · simp only [List.mem_cons, List.not_mem_nil, or_false] at hu
    rcases hu with rfl | rfl | rfl | rfl | rfl | rfl | rfl | rfl <;> rfl

theorem fits_rtCaptures (v : RtVars) (xs : List RtInput) : ∀ u ∈ (rtCaptures v xs : List (RtField × Call F)), (RtField.kind u.1).fits u.2 = true := by
  induction xs generalizing v with
  | nil => simp [rtCaptures]
  | cons x xs ih =>
    intro u hu
    rcases List.mem_append.1 hu with hu | hu
    · exact fits_rtUpdates v x u hu
    · exact ih _ u hu

/-- The calls on one metric. -/
def callsOn (k : RtField) (us : List (RtField × Call F)) : List (Call F) := us.filterMap fun u => if u.1 = k then some u.2 else none

theorem callsOn_append (k : RtField) (a b : List (RtField × Call F)) : callsOn k (a ++ b) = callsOn k a ++ callsOn k b := by
  simp [callsOn, List.filterMap_append]

theorem callsOn_updates (prev x : RtInput) (k : RtField) :
    callsOn k (rtUpdates (rtAfter prev) x : List (RtField × Call F)) = match RtField.kind k with
      | .gauge => [.update (rtGauge prev x k)]
      | .gaugeFloat64 => [.updateF x.stats.gcCPUFraction]
      | .histogram => (given .pauseNs (rtUpdates (rtAfter prev) x : List (RtField × Call F))).map .update
      | .timer => [.updateSince x.t] := by
  rw [given_pauses]
  have h1 : callsOn .pauseNs ((pauseIndices (rtAfter prev).numGC x.stats.numGC).map (fun i => ((.pauseNs : RtField), (.update (x.stats.pauseNs i).toInt64 : Call F)))) =
      ((pauseIndices (rtAfter prev).numGC x.stats.numGC).map fun i => (x.stats.pauseNs i).toInt64).map .update := by
    induction pauseIndices (rtAfter prev).numGC x.stats.numGC with
    | nil => rfl
    | cons a l ih => simpa [callsOn] using ih
  have h2 : ∀ k, k ≠ .pauseNs →
      callsOn k ((pauseIndices (rtAfter prev).numGC x.stats.numGC).map (fun i => ((.pauseNs : RtField), (.update (x.stats.pauseNs i).toInt64 : Call F)))) = [] := by
    intro k hk
    induction pauseIndices (rtAfter prev).numGC x.stats.numGC with
    | nil => rfl
    | cons a l ih => simpa [callsOn, Ne.symm hk] using ih
  unfold rtUpdates
  rw [callsOn_append, callsOn_append]
  by_cases hk : k = .pauseNs
  · subst hk
    rw [h1]
    simp [callsOn, RtField.kind]
  · rw [h2 k hk]
    cases k <;> first | exact absurd rfl hk | rfl

/-- The capture before the last. -/
def before (ys : List RtInput) : RtInput := ys.getLast?.getD { stats := {} }

theorem rtCaptures_snoc (ys : List RtInput) (x : RtInput) (prev : RtInput) :
    (rtCaptures (rtAfter prev) (ys ++ [x]) : List (RtField × Call F)) = rtCaptures (rtAfter prev) ys ++ rtUpdates (rtAfter (ys.getLast?.getD prev)) x := by
  induction ys generalizing prev with
  | nil => simp [rtCaptures]
  | cons y ys ih =>
    show rtUpdates _ y ++ rtCaptures (rtAfter y) (ys ++ [x]) = (rtUpdates _ y ++ rtCaptures (rtAfter y) ys) ++ _
    rw [ih y, List.append_assoc, List.getLast?_cons]
    rfl

theorem foldl_gauge (l : List (Call F)) (x : Int64 × FloatBits) (v : Int64) : (l ++ [Call.update v]).foldl (StatKind.gauge.bump) x = ((v, 0) : Int64 × FloatBits) := by
  simp [Spec.StatKind.bump]
theorem foldl_gaugeF (l : List (Call F)) (x : Int64 × FloatBits) (v : FloatBits) : (l ++ [Call.updateF v]).foldl (StatKind.gaugeFloat64.bump) x = ((0, v) : Int64 × FloatBits) := by
  simp [Spec.StatKind.bump]
theorem foldl_count (t : StatKind) (ht : ∀ x (c : Call F), t.bump x c = (x.1 + 1, 0)) (l : List (Call F)) (n : Int64) : (l.foldl t.bump (n, 0)).1 = n + Int64.ofNat l.length := by
  induction l generalizing n with
  | nil => simp
  | cons c l ih =>
    rw [List.foldl_cons, ht, ih, List.length_cons, Int64.ofNat_add, Int64.add_assoc, Int64.add_comm 1]
    rfl

theorem callsOn_pauses (ys : List RtInput) (prev : RtInput) :
    (callsOn .pauseNs (rtCaptures (rtAfter prev) ys : List (RtField × Call F))).length = (given .pauseNs (rtCaptures (rtAfter prev) ys : List (RtField × Call F))).length := by
  induction ys generalizing prev with
  | nil => rfl
  | cons y ys ih =>
    show (callsOn _ (rtUpdates _ y ++ rtCaptures (rtAfter y) ys)).length = (given _ (rtUpdates _ y ++ rtCaptures (rtAfter y) ys)).length
    rw [callsOn_append, given_append, List.length_append, List.length_append, ih y, callsOn_updates]
    simp [RtField.kind]

theorem callsOn_timer (ys : List RtInput) (prev : RtInput) : (callsOn .readMemStats (rtCaptures (rtAfter prev) ys : List (RtField × Call F))).length = ys.length := by
  induction ys generalizing prev with
  | nil => rfl
  | cons y ys ih =>
    show (callsOn _ (rtUpdates _ y ++ rtCaptures (rtAfter y) ys)).length = _
    rw [callsOn_append, List.length_append, ih y, callsOn_updates]
    simp [RtField.kind, Nat.add_comm]

/-- C74: in a program that registers the runtime statistics, in any reachable state without `UseNilMetrics` and with the names free, and then captures them
one or more times, no capture panics, and afterwards the registry shows under each documented name the number last read (or its change since the capture
before), the pauses recorded (C69 says which) and the number of captures. -/
theorem C74_shown (h : List (Env F × Op F)) (env env' : Env F) (g : Reg) (id : Nat) (hb : base g = some id) (hu : (World.init.run h : World F).useNil = false)
    (hfree : ∀ k, gets (World.init.run h : World F) id (baseName g (bytes (rtName k))) = none) (ys : List RtInput) (x : RtInput) (envs : Nat → Env F) :
    ∃ w' m w'', registerRuntime env g {} (World.init.run h : World F) = (w', .ok { done := true, metrics := m }) ∧
      applyUpdates { done := true, metrics := m } envs (rtCaptures {} (ys ++ [x])) w' = (w'', .ok ()) ∧
      ∀ k, ∃ r, gets w'' id (baseName g (bytes (rtName k))) = some r ∧
        match RtField.kind k with
        | .gauge => observe w'' env' r .value = .ok (.int (rtGauge (before ys) x k))
        | .gaugeFloat64 => observe w'' env' r .value = .ok (.bits x.stats.gcCPUFraction)
        | .histogram => observe w'' env' r .count = .ok (.int (.ofNat (given .pauseNs (rtCaptures {} (ys ++ [x]) : List (RtField × Call F))).length))
        | .timer => observe w'' env' r .count = .ok (.int (.ofNat (ys.length + 1))) := by
  obtain ⟨w', m, h1, h2, -, h4, h5⟩ := registerRuntime_spec (World.init.run h : World F) (run_ok h) env g id hb {} rfl
  obtain ⟨w'', e1, e2, e3, e4⟩ := applyUpdates_spec RtField.kind { done := true, metrics := m } (rtCaptures {} (ys ++ [x]))
    (fits_rtCaptures _ _) envs w' (h4 hu)
  refine ⟨w', m, w'', h1, e1, fun k => ?_⟩
  obtain ⟨r, o, g1, g2, -, -⟩ := h2 k (hfree k)
  refine ⟨r, by rw [gets_eq, e3, ← gets_eq]; exact g2, ?_⟩
  obtain ⟨r', g3, g4⟩ := e2.ready k
  obtain rfl : r = r' := by
    have : m k = some r' := g3
    rw [g1] at this; simpa using this
  have hread := e4 k r g1
  have hs : (rtCaptures {} (ys ++ [x]) : List (RtField × Call F)) = rtCaptures {} ys ++ rtUpdates (rtAfter (before ys)) x := rtCaptures_snoc ys x { stats := {} }
  change statOfMetric w'' r = (callsOn k (rtCaptures {} (ys ++ [x]))).foldl _ _ at hread
  rw [h5 k r g1] at hread
  have hcu := callsOn_updates (F := F) (before ys) x k
  rcases hk : RtField.kind k with _ | _ | _ | _ <;> rw [hk] at g4 hcu hread <;> simp only at hcu ⊢ <;> have hobs := observe_ready w'' env' r _ g4 <;> simp only at hobs
  · rw [hs, callsOn_append, hcu, foldl_gauge] at hread
    rw [hobs, hread]
  · rw [hs, callsOn_append, hcu, foldl_gaugeF] at hread
    rw [hobs, hread]
  · have hk' : k = .pauseNs := by cases k <;> simp_all [RtField.kind]
    subst hk'
    rw [hobs, hread, foldl_count _ (fun _ _ => rfl)]
    have := callsOn_pauses (F := F) (ys ++ [x]) { stats := {} }
    rw [show rtAfter { stats := {} } = {} from rfl] at this
    rw [this]
    simp
  · have hk' : k = .readMemStats := by cases k <;> simp_all [RtField.kind]
    subst hk'
    rw [hobs, hread, foldl_count _ (fun _ _ => rfl)]
    have := callsOn_timer (F := F) (ys ++ [x]) { stats := {} }
    rw [show rtAfter { stats := {} } = {} from rfl] at this
    rw [this]
    simp

/-- Nothing is needed before: an empty program, the default registry. -/
example (env : Env F) (envs : Nat → Env F) : ∃ w' m w'', registerRuntime env (.std 0) {} (World.init : World F) = (w', .ok { done := true, metrics := m }) ∧
    applyUpdates { done := true, metrics := m } envs (rtCaptures {} [rtExample 3, rtExample 5]) w' = (w'', .ok ()) ∧
    ∃ r, gets w'' 0 (bytes "runtime.MemStats.Frees") = some r ∧ observe w'' env r .value = .ok (.int 20) := by
  obtain ⟨w', m, w'', h1, h2, h3⟩ := C74_shown (F := F) [] env env (.std 0) 0 rfl rfl (fun k => by rw [gets_eq]; rfl) [rtExample 3] (rtExample 5) envs
  exact ⟨w', m, w'', h1, h2, h3 .frees⟩

/-- Capturing before registering panics, as documented. -/
theorem C74_unregistered (envs : Nat → Env F) (x : RtInput) (w : World F) : applyUpdates {} envs (rtUpdates {} x) w = (w, .error .nilDeref) := rfl

end Registration

/-! ### C73 -/

theorem given_pause (prev : Option Instant) (x : DbgInput) : given .pause (dbgUpdates prev x : List (DbgField × Call F)) =
    if prev ≠ some x.lastGC then x.pause.head?.toList else [] := by
  rcases hp : x.pause with _ | ⟨d, l⟩
  · simp [given, dbgUpdates, hp]
  · by_cases hc : prev = some x.lastGC
    · simp [given, dbgUpdates, hp, hc]
    · simp [given, dbgUpdates, hp, hc]

/-- C73: collection number `k` ended at `ended k`, a different time for each; the captures happen after `ns` collections. The histogram of pauses is given
the pause of the latest collection of each capture, once, and none again: of several collections between two captures only the last is recorded. -/
theorem C73_pauses (ended : Nat → Instant) (pause : Nat → Int64) (hinj : ∀ i j, ended i = ended j → i = j) (l : List (Nat × DbgInput))
    (hl : ∀ e ∈ l, DbgShows ended pause e.1 e.2) (hpos : ∀ e ∈ l, 0 < e.1) :
    given .pause (dbgCaptures none (l.map Prod.snd) : List (DbgField × Call F)) = latestPauses pause 0 (l.map Prod.fst) := by
  have key : ∀ (l : List (Nat × DbgInput)) (prev : Option Instant) (n : Nat), (∀ e ∈ l, DbgShows ended pause e.1 e.2) → (∀ e ∈ l, 0 < e.1) →
      (match n with | 0 => prev = none | k + 1 => prev = some (ended k)) →
      given .pause (dbgCaptures prev (l.map Prod.snd) : List (DbgField × Call F)) = latestPauses pause n (l.map Prod.fst) := by
    intro l
    induction l with
    | nil => intros; rfl
    | cons e l ih =>
      obtain ⟨n', x⟩ := e
      intro prev n hl hpos hprev
      have hx := hl (n', x) (by simp)
      have hn' := hpos (n', x) (by simp)
      obtain ⟨k', rfl⟩ : ∃ k', n' = k' + 1 := ⟨n' - 1, by omega⟩
      obtain ⟨hx1, hx2⟩ := hx
      show given .pause (dbgUpdates prev x ++ dbgCaptures (some x.lastGC) (l.map Prod.snd)) = _
      rw [given_append, given_pause, ih (some x.lastGC) (k' + 1) (fun e he => hl e (by simp [he])) (fun e he => hpos e (by simp [he])) (by rw [hx1])]
      show _ = (if k' + 1 = n then [] else [pause (k' + 1 - 1)]) ++ _
      congr 1
      rw [hx1, hx2]
      cases n with
      | zero =>
        rw [if_pos (by rw [hprev]; simp), if_neg (by omega)]
        rfl
      | succ k =>
        rw [hprev]
        by_cases hk : k' = k
        · subst hk; simp
        · rw [if_pos (by intro h; exact hk (hinj _ _ (by simpa using h.symm))), if_neg (by omega)]
          rfl
  exact key l none 0 hl hpos rfl

/-- Before the first collection nothing is recorded. -/
theorem C73_none (prev : Option Instant) (ended : Nat → Instant) (pause : Nat → Int64) (x : DbgInput) (hx : DbgShows ended pause 0 x) :
    given .pause (dbgUpdates prev x : List (DbgField × Call F)) = [] := by
  have : x.pause = [] := hx
  rw [given_pause, this]
  simp

def dbgExample (n : Nat) : DbgInput := { lastGC := 10 * ((n : Int) - 1), pause := if n = 0 then [] else [Int64.ofNat n] }
example : ∀ e ∈ [(2, dbgExample 2), (2, dbgExample 2), (5, dbgExample 5)], DbgShows (fun k => 10 * (k : Int)) (fun k => Int64.ofNat (k + 1)) e.1 e.2 := by
  simp [DbgShows, dbgExample]
example : given .pause (dbgCaptures none [dbgExample 2, dbgExample 2, dbgExample 5] : List (DbgField × Call F)) = [2, 5] := rfl

end GoMetrics
