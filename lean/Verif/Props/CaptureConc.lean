import Verif.Lemmas.CaptureConc
import Verif.Props.Runtime

/-! Captures of runtime statistics by several goroutines (C96). -/

set_option linter.unusedSectionVars false

namespace GoMetrics
open Spec

variable {F : Type}

/-- All goroutines idle. -/
abbrev noCapture {L St : Type} : Nat → Thread L St := fun _ => .idle

/-- C96: captures by any goroutines, one at a time, call the metrics as captures by a single goroutine do; of one still going on a part of its calls. -/
theorem C96_serial_partial (s : RtShared) (sched : List (Nat × Option RtInput)) (s' : RtShared) (ls' : Nat → Thread RtLocal RtStmt) (es : List (RtEvent F))
    (hrun : rtMachine.run s noCapture sched = some (s', ls', es)) (hone : OneAtATime (rtMachine (F := F)) s noCapture sched) :
    rtCalls es <+: rtCaptures s.vars (started sched) ∧
    ((∀ u, ls' u = .idle) → rtCalls es = rtCaptures s.vars (started sched) ∧ s'.vars = ((started sched).map rtAfter).getLastD s.vars) := by
  obtain ⟨h1, h2⟩ := (Lang.serial rtLang (fun x => ({ x := x } : RtLocal)) rtProg rtEvs rtDone rt_big sched _ _ _ _ _ hrun hone).1 fun _ => rfl
  rw [← rtCalls_events]
  refine ⟨h1.filterMap _, fun hi => ?_⟩
  obtain ⟨h3, h4⟩ := h2 hi
  refine ⟨by rw [h3], ?_⟩
  rw [h4]
  generalize started sched = xs
  clear h1 h2 h3 h4 hrun hone hi
  induction xs generalizing s with
  | nil => rfl
  | cons x xs ih =>
    rw [List.foldl_cons, ih]
    cases xs with
    | nil => rfl
    | cons y ys => simp [rtDone, List.getLastD]

/-- C96: so every collection's pause is recorded exactly once, whichever goroutines make the captures (with at most 256 collections in between). -/
theorem C96_pauses_partial (pause : Nat → UInt64) (l : List (Nat × RtInput)) (hl : Frequent pause 0 l) (sched : List (Nat × Option RtInput))
    (hst : started sched = l.map Prod.snd) (s' : RtShared) (ls' : Nat → Thread RtLocal RtStmt) (es : List (RtEvent F))
    (hrun : rtMachine.run {} noCapture sched = some (s', ls', es)) (hone : OneAtATime (rtMachine (F := F)) {} noCapture sched)
    (hend : ∀ u, ls' u = .idle) :
    (given .pauseNs (rtCalls es)).Perm (pausesFrom pause 0 (lastOr 0 (l.map Prod.fst))) := by
  rw [((C96_serial_partial _ _ _ _ _ hrun hone).2 hend).1, hst]
  exact C69_history pause 0 {} l rfl hl

/-- C96: the same for `CaptureDebugGCStatsOnce`. -/
theorem C96_debug_serial_partial (s : DbgShared) (sched : List (Nat × Option DbgInput)) (s' : DbgShared) (ls' : Nat → Thread DbgLocal DbgStmt)
    (es : List (DbgEvent F)) (hrun : dbgMachine.run s noCapture sched = some (s', ls', es)) (hone : OneAtATime (dbgMachine (F := F)) s noCapture sched) :
    dbgCalls es <+: dbgCaptures s.lastGC (started sched) ∧ ((∀ u, ls' u = .idle) → dbgCalls es = dbgCaptures s.lastGC (started sched)) := by
  obtain ⟨h1, h2⟩ := (Lang.serial dbgLang (fun x => ({ x := x } : DbgLocal)) dbgProg dbgEvs dbgDone dbg_big sched _ _ _ _ _ hrun hone).1 fun _ => rfl
  rw [← dbgCalls_events]
  exact ⟨h1.filterMap _, fun hi => by rw [(h2 hi).1]⟩

/-! ### Any interleaving -/

/-- What holds of the goroutines between statements. -/
def RtInv (s : RtShared) (ls : Nat → Thread RtLocal RtStmt) (seen : List MemStats) : Prop :=
  ∀ t l rest, ls t = .busy l rest → l.ii < 256 ∧ .upd .pauseNs ∉ rest ∧ (rest = rtProg ∨ (.read ∉ rest ∧ s.memStats ∈ seen))

theorem rt_reported (sched : List (Nat × Option RtInput)) : ∀ (s : RtShared) (ls : Nat → Thread RtLocal RtStmt) (seen : List MemStats) (s' : RtShared)
    (ls' : Nat → Thread RtLocal RtStmt) (es : List (RtEvent F)), rtMachine.run s ls sched = some (s', ls', es) → RtInv s ls seen → Reported seen es := by
  induction sched with
  | nil =>
    intro s ls seen s' ls' es hr _
    simp only [Machine.run, Option.some.injEq, Prod.mk.injEq] at hr
    obtain ⟨-, -, rfl⟩ := hr
    trivial
  | cons e sched ih =>
    obtain ⟨t, i⟩ := e
    intro s ls seen s' ls' es hr hinv
    simp only [Machine.run] at hr
    cases hstep : (rtMachine (F := F)).step t i s (ls t) with
    | none => rw [hstep] at hr; cases hr
    | some r =>
      obtain ⟨s1, l1, e1⟩ := r
      rw [hstep] at hr
      simp only at hr
      cases hrun : (rtMachine (F := F)).run s1 (Function.update ls t l1) sched with
      | none => rw [hrun] at hr; cases hr
      | some r2 =>
        obtain ⟨s2, ls2, e2⟩ := r2
        rw [hrun] at hr
        simp only [Option.some.injEq, Prod.mk.injEq] at hr
        obtain ⟨rfl, rfl, rfl⟩ := hr
        have ih' := fun seen => ih s1 _ seen _ _ _ hrun
        -- the others
        have hother : ∀ seen', (∀ m ∈ seen, m ∈ seen') → s1.memStats = s.memStats ∨ s1.memStats ∈ seen' →
            (∀ l rest, l1 = .busy l rest → l.ii < 256 ∧ .upd .pauseNs ∉ rest ∧ (rest = rtProg ∨ (.read ∉ rest ∧ s1.memStats ∈ seen'))) →
            RtInv s1 (Function.update ls t l1) seen' := by
          intro seen' hsub hm hme u l rest hu
          by_cases hut : u = t
          · subst hut
            rw [Function.update_self] at hu
            exact hme l rest hu
          · rw [Function.update_of_ne hut] at hu
            obtain ⟨h1, h2, h3⟩ := hinv u l rest hu
            refine ⟨h1, h2, h3.imp_right fun h => ⟨h.1, ?_⟩⟩
            rcases hm with hm | hm
            · rw [hm]; exact hsub _ h.2
            · exact hm
        cases i with
        | some x =>
          cases hlt : ls t with
          | busy l rest => simp [rtMachine, Lang.machine, hlt] at hstep
          | idle =>
            simp only [rtMachine, Lang.machine, hlt, Option.some.injEq, Prod.mk.injEq] at hstep
            obtain ⟨rfl, rfl, rfl⟩ := hstep
            refine ih' seen (hother seen (fun _ h => h) (.inl rfl) fun l rest hl => ?_)
            simp only [Thread.busy.injEq] at hl
            obtain ⟨rfl, rfl⟩ := hl
            exact ⟨by show (0 : UInt32) < 256; decide, by simp [rtProg, rtFirst, rtLast], .inl rfl⟩
        | none =>
          cases hlt : ls t with
          | idle => simp [rtMachine, Lang.machine, hlt] at hstep
          | busy l rest =>
            obtain ⟨hii, hnp, hrd⟩ := hinv t l rest hlt
            cases rest with
            | nil =>
              simp only [rtMachine, Lang.machine, hlt, Option.some.injEq, Prod.mk.injEq] at hstep
              obtain ⟨rfl, rfl, rfl⟩ := hstep
              exact ih' seen (hother seen (fun _ h => h) (.inl rfl) fun l rest hl => by cases hl)
            | cons st rest =>
              simp only [rtMachine, Lang.machine, hlt, Option.some.injEq, Prod.mk.injEq] at hstep
              obtain ⟨hs1, hl1, he1⟩ := hstep
              by_cases hread : st = .read
              · subst hread
                simp only [rtExec] at hs1 hl1 he1
                subst hs1 hl1 he1
                refine ih' (l.x.stats :: seen) (hother _ (fun _ h => List.mem_cons_of_mem _ h) (.inr (by simp)) fun l' rest' hl => ?_)
                simp only [List.nil_append, Thread.busy.injEq] at hl
                obtain ⟨rfl, rfl⟩ := hl
                refine ⟨hii, fun h => hnp (List.mem_cons_of_mem _ h), .inr ⟨?_, by simp⟩⟩
                rcases hrd with h | h
                · simp only [rtProg, rtFirst, rtLast, List.cons_append, List.cons.injEq] at h
                  rw [h.2]
                  simp
                · exact absurd List.mem_cons_self h.1
              · have hmem : RtStmt.read ∉ st :: rest ∧ s.memStats ∈ seen := by
                  rcases hrd with h | h
                  · simp only [rtProg, rtFirst, List.cons_append, List.cons.injEq] at h
                    exact absurd h.1 hread
                  · exact h
                have hnr : RtStmt.read ∉ rest := fun h => hmem.1 (List.mem_cons_of_mem _ h)
                have hnp' : RtStmt.upd .pauseNs ∉ rest := fun h => hnp (List.mem_cons_of_mem _ h)
                have hpause : ∀ j : UInt32, j < 256 → ∃ m ∈ seen, ∃ i < 256, (s.memStats.pauseNs j.toNat).toInt64 = (m.pauseNs i).toInt64 :=
                  fun j hj => ⟨_, hmem.2, j.toNat, by rw [UInt32.lt_iff_toNat_lt] at hj; exact hj, rfl⟩
                -- all other statements leave `memStats` as it is
                have hs : s1.memStats = s.memStats := by
                  subst hs1
                  cases st <;> simp only [rtExec] <;> (try split) <;> first | rfl | exact absurd rfl hread
                have hl : ∀ l' rest', l1 = .busy l' rest' → l'.ii < 256 ∧ .upd .pauseNs ∉ rest' ∧ (rest' = rtProg ∨ (.read ∉ rest' ∧ s1.memStats ∈ seen)) := by
                  intro l' rest' h
                  rw [hs]
                  subst hl1
                  simp only [Thread.busy.injEq] at h
                  obtain ⟨rfl, rfl⟩ := h
                  have hmod : s.memStats.numGC % 256 < 256 := by
                    rw [UInt32.lt_iff_toNat_lt, UInt32.toNat_mod]
                    exact Nat.mod_lt _ (by decide)
                  have hme : ∀ new : List RtStmt, .read ∉ new → .upd .pauseNs ∉ new → .upd .pauseNs ∉ new ++ rest ∧
                      (new ++ rest = rtProg ∨ (.read ∉ new ++ rest ∧ s.memStats ∈ seen)) := fun new h1 h2 =>
                    ⟨by simp [h2, hnp'], .inr ⟨by simp [h1, hnr], hmem.2⟩⟩
                  cases st with
                  | read => exact absurd rfl hread
                  | setII => exact ⟨hmod, hme _ (by simp [rtExec]) (by simp [rtExec])⟩
                  | branch =>
                    simp only [rtExec]
                    split
                    · exact ⟨hii, hme _ (by simp) (by simp)⟩
                    · split
                      · exact ⟨hii, hme _ (by simp) (by simp)⟩
                      · exact ⟨hii, hme _ (by simp) (by simp)⟩
                  | loop256 => simp only [rtExec]; split <;> exact ⟨hii, hme _ (by simp) (by simp)⟩
                  | loopTo => simp only [rtExec]; split <;> exact ⟨hii, hme _ (by simp) (by simp)⟩
                  | _ => exact ⟨hii, hme _ (by simp [rtExec]) (by simp [rtExec])⟩
                have hrest := ih' seen (hother seen (fun _ h => h) (.inl hs) hl)
                subst he1
                cases st with
                | read => exact absurd rfl hread
                | upd f =>
                  refine ⟨⟨fun v hf hv => ⟨_, hmem.2, ?_⟩, fun v hf => ?_⟩, hrest⟩
                  · cases f <;> simp [rtPlain] at hf <;> simp only [rtArg, Call.update.injEq] at hv <;> rw [← hv] <;> rfl
                  · subst hf
                    exact absurd List.mem_cons_self hnp
                | branch => simp only [rtExec]; split <;> exact hrest
                | loop256 =>
                  simp only [rtExec]
                  split
                  · next hlt =>
                    refine ⟨⟨fun v hf => absurd rfl hf, fun v _ hv => ?_⟩, hrest⟩
                    simp only [rtArg, Call.update.injEq] at hv
                    rw [← hv]
                    exact hpause _ hlt
                  · exact hrest
                | loopTo =>
                  simp only [rtExec]
                  split
                  · next hlt =>
                    refine ⟨⟨fun v hf => absurd rfl hf, fun v _ hv => ?_⟩, hrest⟩
                    simp only [rtArg, Call.update.injEq] at hv
                    rw [← hv]
                    exact hpause _ (by rw [UInt32.lt_iff_toNat_lt] at *; omega)
                  · exact hrest
                | _ => exact hrest

/-- C96: however captures interleave, no gauge that shows a number of the statistics as it is ever shows one that was not in statistics read before, and
the pauses recorded are pauses of statistics read before. -/
theorem C96_reported_partial (s : RtShared) (sched : List (Nat × Option RtInput)) (s' : RtShared) (ls' : Nat → Thread RtLocal RtStmt) (es : List (RtEvent F))
    (hrun : rtMachine.run s noCapture sched = some (s', ls', es)) : Reported [] es :=
  rt_reported sched s noCapture [] s' ls' es hrun fun _ _ _ h => by cases h

/-! ### What goes wrong -/

/-- Steps of a goroutine. -/
def steps {X : Type} (t n : Nat) : List (Nat × Option X) := List.replicate n (t, none)

/-- After `n ≤ 256` collections, the pause of number `k` being `k + 1` ns, and `10 * n` allocations. -/
def capAfter (n : Nat) : RtInput := { stats := { numGC := .ofNat n, mallocs := .ofNat (10 * n), pauseNs := fun i => .ofNat (i + 1) } }

theorem capAfter_shows (n : Nat) (hn : n ≤ 256) : Shows (fun k => .ofNat (k + 1)) n (capAfter n).stats := by
  refine ⟨by simp [capAfter], fun k hk _ => ?_⟩
  show UInt64.ofNat (k % 256 + 1) = _
  rw [Nat.mod_eq_of_lt (by omega)]

/-- Goroutine 1 reads the statistics just before goroutine 0 saves `numGC = memStats.NumGC`. -/
def lostSched : List (Nat × Option RtInput) :=
  (0, some (capAfter 1)) :: steps 0 28 ++ ((1, some (capAfter 2)) :: steps 1 1) ++ steps 0 14 ++ steps 1 40

/-- Goroutine 1 makes a capture just before goroutine 0 saves `numGC = memStats.NumGC`. -/
def twiceSched : List (Nat × Option RtInput) :=
  (0, some (capAfter 1)) :: steps 0 28 ++ ((1, some (capAfter 1)) :: steps 1 42) ++ steps 0 14

/-- The pauses, collections and allocations reported in a run, what is kept for later captures, and whether goroutines 0 and 1 are idle. -/
def outcome (r : RtShared × (Nat → Thread RtLocal RtStmt) × List (RtEvent F)) : List (List Int64) × UInt32 × Bool :=
  ([given .pauseNs (rtCalls r.2.2), given .numGC (rtCalls r.2.2), given .mallocs (rtCalls r.2.2)], r.1.vars.numGC,
    [0, 1].all fun u => match r.2.1 u with | .idle => true | .busy .. => false)

theorem run_outcome {sched : List (Nat × Option RtInput)} {o : List (List Int64) × UInt32 × Bool}
    (h : (((rtMachine (F := F)).run {} noCapture sched).map outcome) = some o) :
    ∃ s' ls' es, (rtMachine (F := F)).run {} noCapture sched = some (s', ls', es) ∧ outcome (s', ls', es) = o := by
  cases hr : (rtMachine (F := F)).run {} noCapture sched with
  | none => rw [hr] at h; cases h
  | some r =>
    rw [hr] at h
    simp only [Option.map_some, Option.some.injEq] at h
    exact ⟨r.1, r.2.1, r.2.2, rfl, h⟩

theorem idle_of_outcome {s' : RtShared} {ls' : Nat → Thread RtLocal RtStmt} {es : List (RtEvent F)} {a b} (h : outcome (s', ls', es) = (a, b, true)) :
    ls' 0 = .idle ∧ ls' 1 = .idle := by
  simp only [outcome, Prod.mk.injEq, List.all_cons, List.all_nil, Bool.and_true, Bool.and_eq_true] at h
  constructor
  · cases h0 : ls' 0 with
    | idle => rfl
    | busy => have := h.2.2.1; rw [h0] at this; cases this
  · cases h0 : ls' 1 with
    | idle => rfl
    | busy => have := h.2.2.2; rw [h0] at this; cases this

/-- C96 fails for captures that overlap: two goroutines make one capture each, after 1 and 2 collections. All is over, and yet the pause of the second collection
is not recorded, nor will it be by any later captures; the gauges of collections and allocations show changes of 1 and 0 and of 10 and 0, though
2 collections and 20 allocations happened. -/
theorem C96_lost_refuted : ∃ (s' : RtShared) (ls' : Nat → Thread RtLocal RtStmt) (es : List (RtEvent F64)),
    started lostSched = [capAfter 1, capAfter 2] ∧ rtMachine.run {} noCapture lostSched = some (s', ls', es) ∧ ls' 0 = .idle ∧ ls' 1 = .idle ∧
    given .pauseNs (rtCalls es) = [1] ∧ given .numGC (rtCalls es) = [1, 0] ∧ given .mallocs (rtCalls es) = [10, 0] ∧
    ∀ l, Frequent (fun k => .ofNat (k + 1)) 2 l →
      (given .pauseNs (rtCaptures s'.vars (l.map Prod.snd) : List (RtField × Call F64))).Perm
        (pausesFrom (fun k => .ofNat (k + 1)) 2 (lastOr 2 (l.map Prod.fst))) := by
  obtain ⟨s', ls', es, hr, ho⟩ := run_outcome (F := F64) (sched := lostSched) (o := ([[1], [1, 0], [10, 0]], 2, true)) (by decide +kernel)
  obtain ⟨h0, h1⟩ := idle_of_outcome ho
  simp only [outcome, Prod.mk.injEq, List.cons.injEq] at ho
  obtain ⟨⟨hp, hn, hm, -⟩, hv, -⟩ := ho
  exact ⟨s', ls', es, rfl, hr, h0, h1, hp, hn, hm, fun l hl => C69_history _ 2 _ l (by rw [hv]; rfl) hl⟩

/-- C96 fails for captures that overlap: after a single collection, two goroutines make one capture each, and its pause is recorded twice. -/
theorem C96_twice_refuted : ∃ (s' : RtShared) (ls' : Nat → Thread RtLocal RtStmt) (es : List (RtEvent F64)),
    started twiceSched = [capAfter 1, capAfter 1] ∧ rtMachine.run {} noCapture twiceSched = some (s', ls', es) ∧ ls' 0 = .idle ∧ ls' 1 = .idle ∧
    given .pauseNs (rtCalls es) = [1, 1] ∧ given .numGC (rtCalls es) = [1, 1] ∧ given .mallocs (rtCalls es) = [10, 10] := by
  obtain ⟨s', ls', es, hr, ho⟩ := run_outcome (F := F64) (sched := twiceSched) (o := ([[1, 1], [1, 1], [10, 10]], 1, true)) (by decide +kernel)
  obtain ⟨h0, h1⟩ := idle_of_outcome ho
  simp only [outcome, Prod.mk.injEq, List.cons.injEq] at ho
  obtain ⟨⟨hp, hn, hm, -⟩, -, -⟩ := ho
  exact ⟨s', ls', es, rfl, hr, h0, h1, hp, hn, hm⟩

example : Shows (fun k => .ofNat (k + 1)) 1 (capAfter 1).stats ∧ Shows (fun k => .ofNat (k + 1)) 2 (capAfter 2).stats :=
  ⟨capAfter_shows 1 (by decide), capAfter_shows 2 (by decide)⟩
example : pausesFrom (fun k => .ofNat (k + 1)) 0 2 = [1, 2] := by decide

/-- Two captures by different goroutines, the second one started when the first is over. -/
def turns : List (Nat × Option RtInput) := (0, some (capAfter 1)) :: steps 0 42 ++ ((1, some (capAfter 3)) :: steps 1 43)

example : ((rtMachine (F := F64)).run {} noCapture turns).map outcome = some ([[1, 2, 3], [1, 2], [10, 20]], 3, true) := by decide +kernel

/-- A schedule one at a time, as a check: no goroutine below `n` is busy when one starts. -/
def oneAtATimeB {S L X E St : Type} (M : Machine S (Thread L St) (Option X) E) : S → (Nat → Thread L St) → List Nat → List (Nat × Option X) → Bool
  | _, _, _, [] => true
  | s, ls, ts, (t, i) :: sched =>
    (i.isNone || ts.all fun u => match ls u with | .idle => true | .busy .. => false) &&
    match M.step t i s (ls t) with
    | none => true
    | some (s', l', _) => oneAtATimeB M s' (Function.update ls t l') (t :: ts) sched

theorem oneAtATime_of {S L X E St : Type} (M : Machine S (Thread L St) (Option X) E) (sched : List (Nat × Option X)) : ∀ s ls ts,
    (∀ u, u ∉ ts → ls u = .idle) → oneAtATimeB M s ls ts sched = true → OneAtATime M s ls sched := by
  induction sched with
  | nil => intros; trivial
  | cons e sched ih =>
    obtain ⟨t, i⟩ := e
    intro s ls ts hts h
    simp only [oneAtATimeB, Bool.and_eq_true, Bool.or_eq_true, List.all_eq_true] at h
    refine ⟨fun hi u => ?_, fun s' l' es hstep => ih _ _ (t :: ts) (fun u hu => ?_) (by have := h.2; rw [hstep] at this; exact this)⟩
    · by_cases hu : u ∈ ts
      · rcases h.1 with h1 | h1
        · cases i <;> simp_all
        · have := h1 u hu
          revert this
          cases ls u <;> simp
      · exact hts u hu
    · rw [List.mem_cons, not_or] at hu
      rw [Function.update_of_ne hu.1]
      exact hts u hu.2

example : OneAtATime (rtMachine (F := F64)) {} noCapture turns := oneAtATime_of _ _ _ _ [] (fun _ _ => rfl) (by decide +kernel)

/-! The debug statistics. -/

/-- After `n` collections: number `k` ended at time `100 * (k + 1)` and paused for `k + 1` ns. -/
def dbgAfter (n : Nat) : DbgInput := { lastGC := 100 * n, numGC := .ofNat n, pause := (List.range n).reverse.map fun k => .ofNat (k + 1) }

theorem dbgAfter_shows (n : Nat) : DbgShows (fun k => 100 * (k + 1)) (fun k => .ofNat (k + 1)) n (dbgAfter n) := by
  cases n with
  | zero => rfl
  | succ k => exact ⟨by simp [dbgAfter], by simp [dbgAfter, List.range_succ]⟩

/-- Goroutine 1 reads after goroutine 0 has read and before it tests. -/
def dbgLostSched : List (Nat × Option DbgInput) :=
  (0, some (dbgAfter 1)) :: steps 0 2 ++ ((1, some (dbgAfter 2)) :: steps 1 2) ++ steps 0 7 ++ steps 1 7

/-- C96 fails for overlapping captures of the debug statistics too: two captures, after 1 and after 2 collections, record the pause of the second one twice and that of the first not at all. -/
theorem C96_debug_refuted : started dbgLostSched = [dbgAfter 1, dbgAfter 2] ∧
    (((dbgMachine (F := F64)).run {} noCapture dbgLostSched).map fun r => (given .pause (dbgCalls r.2.2),
      [0, 1].all fun u => match r.2.1 u with | .idle => true | .busy .. => false)) = some ([2, 2], true) ∧
    given .pause (dbgCaptures none [dbgAfter 1, dbgAfter 2] : List (DbgField × Call F64)) = [1, 2] :=
  ⟨rfl, by decide +kernel, by decide +kernel⟩

example : OneAtATime (dbgMachine (F := F64)) {} noCapture ((0, some (dbgAfter 1)) :: steps 0 9 ++ ((1, some (dbgAfter 2)) :: steps 1 9)) :=
  oneAtATime_of _ _ _ _ [] (fun _ _ => rfl) (by decide +kernel)

end GoMetrics
