import Verif.Spec.CaptureConc

/-! Captures one at a time do what the sequential model says. -/

namespace GoMetrics
open Spec

variable {S L St E X F : Type}

/-- Executing statements to the end without interruption. -/
inductive Lang.Big (lang : Lang S L St E) : S → L → List St → S → List E → Prop
  | nil (s l) : Big lang s l [] s []
  | cons {st s l s' l' es new rest s'' es'} : lang.exec st s l = (s', l', es, new) → Big lang s' l' (new ++ rest) s'' es' →
      Big lang s l (st :: rest) s'' (es ++ es')

def Lang.events (evs : S → X → List E) (after : S → X → S) : S → List X → List E
  | _, [] => []
  | s, x :: xs => evs s x ++ Lang.events evs after (after s x) xs

theorem Lang.serial (lang : Lang S L St E) (init : X → L) (prog : List St) (evs : S → X → List E) (after : S → X → S)
    (hb : ∀ s x, lang.Big s (init x) prog (after s x) (evs s x)) (sched : List (Nat × Option X)) :
    ∀ (s : S) (ls : Nat → Thread L St) (s' : S) (ls' : Nat → Thread L St) (es : List E),
      (lang.machine init prog).run s ls sched = some (s', ls', es) → OneAtATime (lang.machine init prog) s ls sched →
      ((∀ u, ls u = .idle) → es <+: Lang.events evs after s (started sched) ∧
        ((∀ u, ls' u = .idle) → es = Lang.events evs after s (started sched) ∧ s' = (started sched).foldl after s)) ∧
      (∀ t l rest s1 es1, ls t = .busy l rest → (∀ u, u ≠ t → ls u = .idle) → lang.Big s l rest s1 es1 →
        es <+: es1 ++ Lang.events evs after s1 (started sched) ∧
        ((∀ u, ls' u = .idle) → es = es1 ++ Lang.events evs after s1 (started sched) ∧ s' = (started sched).foldl after s1)) := by
  induction sched with
  | nil =>
    intro s ls s' ls' es hr _
    simp only [Machine.run, Option.some.injEq, Prod.mk.injEq] at hr
    obtain ⟨rfl, rfl, rfl⟩ := hr
    refine ⟨fun _ => ⟨List.nil_prefix, fun _ => ⟨rfl, rfl⟩⟩, fun t l rest s1 es1 ht _ _ => ⟨List.nil_prefix, fun h => ?_⟩⟩
    rw [h t] at ht
    cases ht
  | cons e sched ih =>
    obtain ⟨t, i⟩ := e
    intro s ls s' ls' es hr hs
    simp only [Machine.run] at hr
    cases hstep : (lang.machine init prog).step t i s (ls t) with
    | none => rw [hstep] at hr; cases hr
    | some r =>
      obtain ⟨s1, l1, e1⟩ := r
      rw [hstep] at hr
      simp only at hr
      cases hrun : (lang.machine init prog).run s1 (Function.update ls t l1) sched with
      | none => rw [hrun] at hr; cases hr
      | some r2 =>
        obtain ⟨s2, ls2, e2⟩ := r2
        rw [hrun] at hr
        simp only [Option.some.injEq, Prod.mk.injEq] at hr
        obtain ⟨rfl, rfl, rfl⟩ := hr
        obtain ⟨hidle, hs'⟩ := hs
        obtain ⟨ihA, ihB⟩ := ih _ _ _ _ _ hrun (hs' _ _ _ hstep)
        cases i with
        | some x =>
          have hall := hidle rfl
          simp only [Lang.machine, hall t, Option.some.injEq, Prod.mk.injEq] at hstep
          obtain ⟨rfl, rfl, rfl⟩ := hstep
          have key := ihB t (init x) prog _ _ (by simp) (fun u hu => by simp [hu, hall u]) (hb s x)
          refine ⟨fun _ => key, fun u l rest s1 es1 hu => ?_⟩
          rw [hall u] at hu
          cases hu
        | none =>
          refine ⟨fun hall => ?_, fun u l rest s3 es3 hu hother hbig => ?_⟩
          · simp [Lang.machine, hall t] at hstep
          · by_cases htu : t = u
            · subst htu
              cases hbig with
              | nil =>
                simp only [Lang.machine, hu, Option.some.injEq, Prod.mk.injEq] at hstep
                obtain ⟨rfl, rfl, rfl⟩ := hstep
                exact ihA fun w => by by_cases hw : w = t <;> simp [hw, hother]
              | cons hex hbig =>
                simp only [Lang.machine, hu, hex, Option.some.injEq, Prod.mk.injEq] at hstep
                obtain ⟨rfl, rfl, rfl⟩ := hstep
                obtain ⟨h1, h2⟩ := ihB t _ _ _ _ (by simp) (fun w hw => by simp [hw, hother w hw]) hbig
                refine ⟨?_, fun h => ?_⟩
                · rw [List.append_assoc]
                  exact (List.prefix_append_right_inj _).2 h1
                · obtain ⟨h3, h4⟩ := h2 h
                  exact ⟨by rw [h3, List.append_assoc]; rfl, h4⟩
            · simp [Lang.machine, hother t htu] at hstep

/-! ### runtime.go -/

abbrev rtLang : Lang RtShared RtLocal RtStmt (RtEvent F) := ⟨rtExec⟩

def rtEvs (s : RtShared) (x : RtInput) : List (RtEvent F) := .read x.stats :: (rtUpdates s.vars x).map fun u => .upd u.1 u.2

def rtDone (_ : RtShared) (x : RtInput) : RtShared := ⟨x.stats, rtAfter x⟩

abbrev pauseEv (m : MemStats) (i : Nat) : RtEvent F := .upd .pauseNs (.update (m.pauseNs i).toInt64)

theorem big_loop (st : RtStmt) (bound : RtLocal → UInt32) (hb : ∀ l i, bound { l with i := i } = bound l)
    (hst : ∀ s l, (rtExec st s l : RtShared × RtLocal × List (RtEvent F) × List RtStmt) =
      if l.i < bound l then (s, { l with i := l.i + 1 }, [pauseEv s.memStats l.i.toNat], [st]) else (s, l, [], []))
    (rest : List RtStmt) (s s' : RtShared) (es : List (RtEvent F)) (n : Nat) :
    ∀ l : RtLocal, (bound l).toNat - l.i.toNat = n → (rtLang (F := F)).Big s { l with i := if l.i < bound l then bound l else l.i } rest s' es →
      (rtLang (F := F)).Big s l (st :: rest) s' ((loopFrom l.i (bound l)).map (pauseEv s.memStats) ++ es) := by
  induction n with
  | zero =>
    intro l hn hbig
    have hlt : ¬ l.i < bound l := by rw [UInt32.lt_iff_toNat_lt]; omega
    rw [if_neg hlt] at hbig
    have : loopFrom l.i (bound l) = [] := by rw [loopFrom, hn]; rfl
    rw [this]
    exact Lang.Big.cons (es := []) (new := []) (by show rtExec st s l = _; rw [hst, if_neg hlt]) hbig
  | succ n ih =>
    intro l hn hbig
    have hlt : l.i < bound l := by rw [UInt32.lt_iff_toNat_lt]; omega
    have hsucc : (l.i + 1).toNat = l.i.toNat + 1 := by
      rw [UInt32.toNat_add]
      have := (bound l).toNat_lt
      have h1 : (1 : UInt32).toNat = 1 := rfl
      rw [h1]
      omega
    have hrange : loopFrom l.i (bound l) = l.i.toNat :: loopFrom (l.i + 1) (bound l) := by
      rw [loopFrom, loopFrom, hn, hsucc, show (bound l).toNat - (l.i.toNat + 1) = n by omega, List.range'_succ]
    rw [hrange, List.map_cons, List.cons_append]
    refine Lang.Big.cons (es := [pauseEv s.memStats l.i.toNat]) (new := [st]) (by show rtExec st s l = _; rw [hst, if_pos hlt]) ?_
    rw [if_pos hlt] at hbig
    have h := ih { l with i := l.i + 1 } (by rw [hb]; show (bound l).toNat - (l.i + 1).toNat = n; omega)
    rw [hb] at h
    refine h ?_
    have : (if l.i + 1 < bound l then bound l else l.i + 1) = bound l := by
      split
      · rfl
      · next hge =>
        rw [UInt32.lt_iff_toNat_lt] at hge hlt
        exact UInt32.toNat.inj (by omega)
    show (rtLang (F := F)).Big s { l with i := if l.i + 1 < bound l then bound l else l.i + 1 } rest s' es
    rw [this]
    exact hbig

theorem rt_big (s : RtShared) (x : RtInput) : (rtLang (F := F)).Big s { x := x } rtProg (rtDone s x) (rtEvs s x) := by
  -- the end
  have hlast : ∀ i ii, (rtLang (F := F)).Big ⟨x.stats, s.vars⟩ { x := x, i := i, ii := ii } rtLast (rtDone s x)
      [.upd .pauseTotalNs (.update x.stats.pauseTotalNs.toInt64), .upd .stackInuse (.update x.stats.stackInuse.toInt64),
       .upd .stackSys (.update x.stats.stackSys.toInt64), .upd .sys (.update x.stats.sys.toInt64), .upd .totalAlloc (.update x.stats.totalAlloc.toInt64),
       .upd .numCgoCall (.update (x.numCgoCall - s.vars.numCgoCalls)), .upd .numGoroutine (.update x.numGoroutine),
       .upd .numThread (.update x.numThread)] := by
    intro i ii
    refine .cons (es := []) rfl <| .cons (es := []) rfl <| .cons (es := []) rfl <| .cons (es := []) rfl <| .cons (es := [_]) rfl <|
      .cons (es := [_]) rfl <| .cons (es := [_]) rfl <| .cons (es := [_]) rfl <| .cons (es := [_]) rfl <| .cons (es := [_]) rfl <|
      .cons (es := []) rfl <| .cons (es := [_]) rfl <| .cons (es := [_]) rfl ?_
    exact .nil _ _
  -- the loops
  have h256 : ∀ (rest : List RtStmt) (s' : RtShared) (es : List (RtEvent F)) (l : RtLocal),
      (rtLang (F := F)).Big ⟨x.stats, s.vars⟩ { l with i := if l.i < 256 then 256 else l.i } rest s' es →
      (rtLang (F := F)).Big ⟨x.stats, s.vars⟩ l (.loop256 :: rest) s' ((loopFrom l.i 256).map (pauseEv x.stats) ++ es) :=
    fun rest s' es l h => big_loop (F := F) .loop256 (fun _ => 256) (fun _ _ => rfl) (fun _ _ => rfl) rest ⟨x.stats, s.vars⟩ s' es _ l rfl h
  have hto : ∀ (rest : List RtStmt) (s' : RtShared) (es : List (RtEvent F)) (l : RtLocal),
      (rtLang (F := F)).Big ⟨x.stats, s.vars⟩ { l with i := if l.i < l.ii then l.ii else l.i } rest s' es →
      (rtLang (F := F)).Big ⟨x.stats, s.vars⟩ l (.loopTo :: rest) s' ((loopFrom l.i l.ii).map (pauseEv x.stats) ++ es) :=
    fun rest s' es l h => big_loop (F := F) .loopTo (fun l => l.ii) (fun _ _ => rfl) (fun _ _ => rfl) rest ⟨x.stats, s.vars⟩ s' es _ l rfl h
  have hmid : (rtLang (F := F)).Big ⟨x.stats, s.vars⟩ { x := x, i := s.vars.numGC % 256, ii := x.stats.numGC % 256 } (.branch :: rtLast) (rtDone s x)
      ((pauseIndices s.vars.numGC x.stats.numGC).map (pauseEv x.stats) ++
        [.upd .pauseTotalNs (.update x.stats.pauseTotalNs.toInt64), .upd .stackInuse (.update x.stats.stackInuse.toInt64),
         .upd .stackSys (.update x.stats.stackSys.toInt64), .upd .sys (.update x.stats.sys.toInt64), .upd .totalAlloc (.update x.stats.totalAlloc.toInt64),
         .upd .numCgoCall (.update (x.numCgoCall - s.vars.numCgoCalls)), .upd .numGoroutine (.update x.numGoroutine),
         .upd .numThread (.update x.numThread)]) := by
    have hbr : (rtExec .branch ⟨x.stats, s.vars⟩ { x := x, i := s.vars.numGC % 256, ii := x.stats.numGC % 256 } :
        RtShared × RtLocal × List (RtEvent F) × List RtStmt) = if x.stats.numGC - s.vars.numGC ≥ 256 then (_, _, [], _) else (_, _, [], _) := rfl
    unfold pauseIndices
    by_cases hc : x.stats.numGC - s.vars.numGC ≥ 256
    · simp only [if_pos hc]
      refine .cons (es := []) (new := [.zeroI, .loop256]) (hbr.trans (if_pos hc)) ?_
      refine .cons (es := []) (new := []) rfl ?_
      exact h256 _ _ _ { x := x, i := 0, ii := x.stats.numGC % 256 } (hlast _ _)
    · simp only [if_neg hc]
      refine .cons (es := []) (new := (if s.vars.numGC % 256 > x.stats.numGC % 256 then [.loop256, .zeroI] else []) ++ [.loopTo])
        (hbr.trans (if_neg hc)) ?_
      by_cases hi : s.vars.numGC % 256 > x.stats.numGC % 256
      · simp only [if_pos hi, List.map_append]
        rw [List.append_eq, List.append_assoc, List.append_assoc (List.map _ _)]
        refine h256 _ _ _ { x := x, i := s.vars.numGC % 256, ii := x.stats.numGC % 256 } ?_
        refine .cons (es := []) (new := []) rfl ?_
        exact hto _ _ _ { x := x, i := 0, ii := x.stats.numGC % 256 } (hlast _ _)
      · simp only [if_neg hi, List.nil_append]
        exact hto _ _ _ { x := x, i := s.vars.numGC % 256, ii := x.stats.numGC % 256 } (hlast _ _)
  have hev : (rtEvs s x : List (RtEvent F)) = [.read x.stats, .upd .readMemStats (.updateSince x.t)] ++
      ([.alloc, .buckHashSys, .debugGC, .enableGC, .frees, .heapAlloc, .heapIdle, .heapInuse, .heapObjects, .heapReleased, .heapSys, .lastGC, .lookups,
        .mallocs, .mCacheInuse, .mCacheSys, .mSpanInuse, .mSpanSys, .nextGC, .numGC, .gcCPUFraction].map
        fun f => RtEvent.upd f (rtArg ⟨x.stats, s.vars⟩ { x := x } f)) ++
      ((pauseIndices s.vars.numGC x.stats.numGC).map (pauseEv x.stats) ++
        [.upd .pauseTotalNs (.update x.stats.pauseTotalNs.toInt64), .upd .stackInuse (.update x.stats.stackInuse.toInt64),
         .upd .stackSys (.update x.stats.stackSys.toInt64), .upd .sys (.update x.stats.sys.toInt64), .upd .totalAlloc (.update x.stats.totalAlloc.toInt64),
         .upd .numCgoCall (.update (x.numCgoCall - s.vars.numCgoCalls)), .upd .numGoroutine (.update x.numGoroutine),
         .upd .numThread (.update x.numThread)]) := by
    simp [rtEvs, rtUpdates, rtArg, Function.comp_def]
  rw [hev]
  refine .cons (es := [_]) rfl <| .cons (es := [_]) rfl <| ?_
  simp only [List.map_cons, List.map_nil, List.nil_append]
  refine .cons (es := [_]) rfl <| .cons (es := [_]) rfl <| .cons (es := [_]) rfl <| .cons (es := [_]) rfl <| .cons (es := [_]) rfl <|
    .cons (es := [_]) rfl <| .cons (es := [_]) rfl <| .cons (es := [_]) rfl <| .cons (es := [_]) rfl <| .cons (es := [_]) rfl <|
    .cons (es := [_]) rfl <| .cons (es := [_]) rfl <| .cons (es := [_]) rfl <| .cons (es := [_]) rfl <| .cons (es := [_]) rfl <|
    .cons (es := [_]) rfl <| .cons (es := [_]) rfl <| .cons (es := [_]) rfl <| .cons (es := [_]) rfl <| .cons (es := [_]) rfl <|
    .cons (es := [_]) rfl <| .cons (es := []) rfl <| .cons (es := []) rfl ?_
  exact hmid

theorem rtCalls_evs (s : RtShared) (x : RtInput) : rtCalls (rtEvs s x : List (RtEvent F)) = rtUpdates s.vars x := by
  simp [rtCalls, rtEvs, List.filterMap_map]

theorem rtCalls_events (xs : List RtInput) : ∀ s : RtShared, rtCalls (Lang.events rtEvs rtDone s xs : List (RtEvent F)) = rtCaptures s.vars xs := by
  induction xs with
  | nil => intro s; rfl
  | cons x xs ih =>
    intro s
    have h : ∀ a b : List (RtEvent F), rtCalls (a ++ b) = rtCalls a ++ rtCalls b := fun a b => List.filterMap_append
    rw [Lang.events, h, rtCalls_evs, ih]
    rfl

/-! ### debug.go -/

abbrev dbgLang : Lang DbgShared DbgLocal DbgStmt (DbgEvent F) := ⟨dbgExec⟩

def dbgEvs (s : DbgShared) (x : DbgInput) : List (DbgEvent F) := .read x :: (dbgUpdates s.lastGC x).map fun u => .upd u.1 u.2

def dbgDone (_ : DbgShared) (x : DbgInput) : DbgShared := ⟨some x.lastGC, x.numGC, x.pause, x.pauseTotal⟩

theorem dbg_big (s : DbgShared) (x : DbgInput) : (dbgLang (F := F)).Big s { x := x } dbgProg (dbgDone s x) (dbgEvs s x) := by
  have hev : (dbgEvs s x : List (DbgEvent F)) = [.read x, .upd .readGCStats (.updateSince x.t), .upd .lastGC (.update (Int64.ofInt x.lastGC)),
      .upd .numGC (.update x.numGC)] ++ ((if s.lastGC ≠ some x.lastGC ∧ 0 < x.pause.length then [.upd .pause (.update (x.pause.headD 0))] else []) ++
      [.upd .pauseTotal (.update x.pauseTotal)]) := by
    unfold dbgEvs dbgUpdates
    by_cases h : s.lastGC = some x.lastGC
    · simp [h]
    · cases hp : x.pause <;> simp [h]
  rw [hev]
  refine .cons (es := []) rfl <| .cons (es := [_]) rfl <| .cons (es := [_]) rfl <| .cons (es := [_]) rfl <| .cons (es := [_]) rfl ?_
  refine .cons (es := []) rfl ?_
  by_cases h : s.lastGC ≠ some x.lastGC ∧ 0 < x.pause.length
  · simp only [if_pos h]
    exact .cons (es := [_]) rfl <| .cons (es := [_]) rfl <| .nil _ _
  · simp only [if_neg h]
    exact .cons (es := [_]) rfl <| .nil _ _

theorem dbgCalls_events (xs : List DbgInput) : ∀ s : DbgShared,
    dbgCalls (Lang.events dbgEvs dbgDone s xs : List (DbgEvent F)) = dbgCaptures s.lastGC xs := by
  induction xs with
  | nil => intro s; rfl
  | cons x xs ih =>
    intro s
    have h : ∀ a b : List (DbgEvent F), dbgCalls (a ++ b) = dbgCalls a ++ dbgCalls b := fun a b => List.filterMap_append
    have h1 : dbgCalls (dbgEvs s x : List (DbgEvent F)) = dbgUpdates s.lastGC x := by
      simp [dbgCalls, dbgEvs, List.filterMap_map]
    rw [Lang.events, h, h1, ih]
    rfl

end GoMetrics
