import Verif.Lemmas.Together
import Verif.Props.Ledger
import Verif.Props.Program

/-! Property theorems C128 (what goroutines have counted and recorded together). -/

set_option linter.unusedSectionVars false

namespace GoMetrics
open Spec Ledger Together

section
variable {F : Type} [GoFloat F] [GoSqrt F] [GoExp F]

/-- C128: goroutines use metrics and registries concurrently. When all their calls have returned, further calls, made one after the other, see what the library has after these very calls, one after the other
in some order: none of them is lost and none is made twice. -/
theorem C128_afterwards (past : List (Env F × Op F)) {sorter : Nat → MemProg Unit} (hs : SortsInPlace sorter) {h : List (HEv (ProgOp F) (ProgSeen F))} {l : List (Nat × ProgOp F × ProgSeen F)}
    (hp : RegProgramHistory sorter (World.init.run past) (h ++ oneByOne l)) (hf : Finished h) :
    ∃ (ops : List (Env F × Op F)) (w' : World F), (ops.map Prod.snd).Perm (callsMade h) ∧ LegalRun ProgCall (World.init.run (past ++ ops)) (l.map Prod.snd) w' := by
  obtain ⟨ops, w', h1, h2⟩ := final_all (C103_program past hs hp) hf
  exact ⟨ops, w', h1, by rw [World.run_append]; exact h2⟩

/-- C128 for one further call. -/
theorem C128_order (past : List (Env F × Op F)) {sorter : Nat → MemProg Unit} (hs : SortsInPlace sorter) {h : List (HEv (ProgOp F) (ProgSeen F))} {t : Nat} {c : ProgOp F} {x : ProgSeen F}
    (hp : RegProgramHistory sorter (World.init.run past) (h ++ [.inv t c, .ret t c x])) (hf : Finished h) :
    ∃ (ops : List (Env F × Op F)) (w' : World F), (ops.map Prod.snd).Perm (callsMade h) ∧ ProgCall (World.init.run (past ++ ops)) c x w' := by
  obtain ⟨ops, w', h1, h2⟩ := final (C103_program past hs hp) hf
  exact ⟨ops, w', h1, by rw [World.run_append]; exact h2⟩

private theorem past_append (h0 : List (Env F × Op F)) (e : Env F × Op F) (later ops : List (Env F × Op F)) : h0 ++ e :: later ++ ops = h0 ++ e :: (later ++ ops) := by simp

/-- What a call shows, if its result does not depend on the state. -/
private theorem shows_int {w w' : World F} {r : Ref} {c : Call F} {x : ProgSeen F} {n : Int64} (h : ProgCall w (.call r c) x w') (ho : ∀ env, observe w env r c = .ok (.int n)) : x = .call (.int n) := by
  cases x with
  | call y =>
    obtain ⟨env, rfl, h2⟩ := h
    have h3 := ho env
    unfold observe at h3
    rw [step_call, h3] at h2
    exact congrArg _ h2
  | _ => exact h.elim

private theorem shows_bits {w w' : World F} {r : Ref} {c : Call F} {x : ProgSeen F} {n : FloatBits} (h : ProgCall w (.call r c) x w') (ho : ∀ env, observe w env r c = .ok (.bits n)) : x = .call (.bits n) := by
  cases x with
  | call y =>
    obtain ⟨env, rfl, h2⟩ := h
    have h3 := ho env
    unfold observe at h3
    rw [step_call, h3] at h2
    exact congrArg _ h2
  | _ => exact h.elim

/-- C128: when all have finished, `Count()` of a counter is its balance before plus all that the goroutines have added (modulo 2^64), in whichever way their calls overlapped, if none of them cleared it. -/
theorem C128_counter (h0 : List (Env F × Op F)) (env0 : Env F) (o : Op F) {r : Ref} (hm : Creates (World.init.run h0) env0 o .counter r) (later : List (Env F × Op F))
    {sorter : Nat → MemProg Unit} (hs : SortsInPlace sorter) {h : List (HEv (ProgOp F) (ProgSeen F))} {t : Nat} {x : ProgSeen F}
    (hp : RegProgramHistory sorter (World.init.run (h0 ++ (env0, o) :: later)) (h ++ [.inv t (.call r .count), .ret t (.call r .count) x])) (hf : Finished h)
    (hc : ∀ u, HEv.inv u (.call r .clear) ∉ h) : x = .call (.int (Int64.ofInt (tally r later + added r h))) := by
  obtain ⟨ops, w', h1, h2⟩ := C128_order _ hs hp hf
  rw [past_append] at h2
  have e : tally r (later ++ ops) = tally r later + added r h := by
    unfold tally
    rw [List.foldl_append, tally_add, added_eq, (h1.map (delta r)).sum_eq]
    intro hm
    obtain ⟨u, hu⟩ := mem_callsMade (h1.mem_iff.1 hm)
    exact hc u hu
  rw [← e]
  exact shows_int h2 fun env => C127_counter h0 env0 o hm (later ++ ops) env

private theorem set_mem (r : Ref) (v : Int64) (l : List (Env F × Op F)) : (l.foldl (fun n e => setAfter r n e.2) v = v ∧ ∀ u, Op.call r (.update u) ∉ l.map Prod.snd) ∨
    Op.call r (.update (l.foldl (fun n e => setAfter r n e.2) v)) ∈ l.map Prod.snd := by
  induction l generalizing v with
  | nil => simp
  | cons e l ih =>
    obtain ⟨env, o⟩ := e
    simp only [List.foldl_cons, List.map_cons, List.mem_cons, not_or]
    by_cases hu : ∃ u, o = .call r (.update u)
    · obtain ⟨u, rfl⟩ := hu
      have : setAfter r v (.call r (.update u) : Op F) = u := by simp [setAfter]
      rw [this]
      rcases ih u with ⟨h1, -⟩ | h1
      · rw [h1]; exact .inr (.inl rfl)
      · exact .inr (.inr h1)
    · have : setAfter r v o = v := by
        unfold setAfter
        split
        · split_ifs with hx
          · subst hx; exact absurd ⟨_, rfl⟩ hu
          · rfl
        · rfl
      rw [this]
      rcases ih v with ⟨h1, h2⟩ | h1
      · exact .inl ⟨h1, fun u => ⟨fun h => hu ⟨u, h.symm⟩, h2 u⟩⟩
      · exact .inr (.inr h1)

private theorem bits_mem (r : Ref) (v : FloatBits) (l : List (Env F × Op F)) : (l.foldl (fun n e => bitsAfter r n e.2) v = v ∧ ∀ u, Op.call r (.updateF u) ∉ l.map Prod.snd) ∨
    Op.call r (.updateF (l.foldl (fun n e => bitsAfter r n e.2) v)) ∈ l.map Prod.snd := by
  induction l generalizing v with
  | nil => simp
  | cons e l ih =>
    obtain ⟨env, o⟩ := e
    simp only [List.foldl_cons, List.map_cons, List.mem_cons, not_or]
    by_cases hu : ∃ u, o = .call r (.updateF u)
    · obtain ⟨u, rfl⟩ := hu
      have : bitsAfter r v (.call r (.updateF u) : Op F) = u := by simp [bitsAfter]
      rw [this]
      rcases ih u with ⟨h1, -⟩ | h1
      · rw [h1]; exact .inr (.inl rfl)
      · exact .inr (.inr h1)
    · have : bitsAfter r v o = v := by
        unfold bitsAfter
        split
        · split_ifs with hx
          · subst hx; exact absurd ⟨_, rfl⟩ hu
          · rfl
        · rfl
      rw [this]
      rcases ih v with ⟨h1, h2⟩ | h1
      · exact .inl ⟨h1, fun u => ⟨fun h => hu ⟨u, h.symm⟩, h2 u⟩⟩
      · exact .inr (.inr h1)

private theorem mem_callsMade_of {h : List (HEv (ProgOp F) (ProgSeen F))} {x : Ref} {c : Call F} {t : Nat} (hm : HEv.inv t (.call x c) ∈ h) : Op.call x c ∈ callsMade h := by
  induction h with
  | nil => cases hm
  | cons e h ih =>
    rcases List.mem_cons.1 hm with rfl | h1
    · exact .head _
    · cases e with
      | ret t o r => exact ih h1
      | inv t o =>
        cases o with
        | each g => exact ih h1
        | _ => exact .tail _ (ih h1)

/-- C128: when all have finished, the value of a gauge is one that some goroutine has set it to; what it was before is only left if nobody has set it. -/
theorem C128_gauge (h0 : List (Env F × Op F)) (env0 : Env F) (o : Op F) {r : Ref} (hm : Creates (World.init.run h0) env0 o .gauge r) (later : List (Env F × Op F))
    {sorter : Nat → MemProg Unit} (hs : SortsInPlace sorter) {h : List (HEv (ProgOp F) (ProgSeen F))} {t : Nat} {x : ProgSeen F}
    (hp : RegProgramHistory sorter (World.init.run (h0 ++ (env0, o) :: later)) (h ++ [.inv t (.call r .value), .ret t (.call r .value) x])) (hf : Finished h) :
    ∃ n, x = .call (.int n) ∧ ((∃ u, HEv.inv u (.call r (.update n)) ∈ h) ∨ n = lastSet r later ∧ ∀ u v, HEv.inv u (.call r (.update v)) ∉ h) := by
  obtain ⟨ops, w', h1, h2⟩ := C128_order _ hs hp hf
  rw [past_append] at h2
  refine ⟨_, shows_int h2 fun env => C127_gauge h0 env0 o hm (later ++ ops) env, ?_⟩
  unfold lastSet
  rw [List.foldl_append]
  rcases set_mem r (later.foldl (fun v e => setAfter r v e.2) 0) ops with ⟨h3, h4⟩ | h3
  · exact .inr ⟨h3, fun u v hu => h4 v (h1.mem_iff.2 (mem_callsMade_of hu))⟩
  · exact .inl (mem_callsMade (h1.mem_iff.1 h3))

/-- C128: when all have finished, the bits of a float gauge are those of a value that some goroutine has set it to; those from before are only left if nobody has set it. -/
theorem C128_gauge_float (h0 : List (Env F × Op F)) (env0 : Env F) (o : Op F) {r : Ref} (hm : Creates (World.init.run h0) env0 o .gaugeF r) (later : List (Env F × Op F))
    {sorter : Nat → MemProg Unit} (hs : SortsInPlace sorter) {h : List (HEv (ProgOp F) (ProgSeen F))} {t : Nat} {x : ProgSeen F}
    (hp : RegProgramHistory sorter (World.init.run (h0 ++ (env0, o) :: later)) (h ++ [.inv t (.call r .value), .ret t (.call r .value) x])) (hf : Finished h) :
    ∃ n, x = .call (.bits n) ∧ ((∃ u, HEv.inv u (.call r (.updateF n)) ∈ h) ∨ n = lastBits r later ∧ ∀ u v, HEv.inv u (.call r (.updateF v)) ∉ h) := by
  obtain ⟨ops, w', h1, h2⟩ := C128_order _ hs hp hf
  rw [past_append] at h2
  refine ⟨_, shows_bits h2 fun env => C127_gauge_float h0 env0 o hm (later ++ ops) env, ?_⟩
  unfold lastBits
  rw [List.foldl_append]
  rcases bits_mem r (later.foldl (fun v e => bitsAfter r v e.2) 0) ops with ⟨h3, h4⟩ | h3
  · exact .inr ⟨h3, fun u v hu => h4 v (h1.mem_iff.2 (mem_callsMade_of hu))⟩
  · exact .inl (mem_callsMade (h1.mem_iff.1 h3))

private theorem shows_stat {w : World F} {l : List Int64} {d : StatCall F} {z : Spec.Seen F} (h : ShowsTo w ((statOf l d).map .out) z) : z = statSeen (statOf l d) := by
  have key : ∀ r : Res (Out F), (∃ n, r = .ok (.int n)) ∨ (∃ v, r = .ok (.float v)) ∨ (∃ v, r = .ok (.floats v)) ∨ (∃ p, r = .error p) → ShowsTo w (r.map .out) z → z = statSeen r := by
    rintro r (⟨n, rfl⟩ | ⟨n, rfl⟩ | ⟨n, rfl⟩ | ⟨n, rfl⟩) h <;> exact h
  refine key _ ?_ h
  cases d with
  | percentile p =>
    simp only [statOf]
    cases samplePercentile l p <;> simp [bind, Except.bind, pure, Except.pure]
  | percentiles ps =>
    simp only [statOf]
    cases samplePercentiles l ps <;> simp [bind, Except.bind, pure, Except.pure]
  | _ => simp [statOf]

section
variable (h0 : List (Env F × Op F)) (env0 : Env F) (o : Op F) {s : Ref} {k : Nat} (hm : Makes (World.init.run h0) env0 o s k) (later : List (Env F × Op F))
  {sorter : Nat → MemProg Unit} (hs : SortsInPlace sorter) {h : List (HEv (ProgOp F) (ProgSeen F))} {t : Nat} {x : Ref} {c : Call F} {y : ProgSeen F}
  (hp : RegProgramHistory sorter (World.init.run (h0 ++ (env0, o) :: later)) (h ++ [.inv t (.call x c), .ret t (.call x c) y])) (hf : Finished h)
  (hc : ∀ u z, recordsIn (World.init.run (h0 ++ (env0, o) :: later)) z = some s → HEv.inv u (.call z .clear) ∉ h)
  (hx : recordsIn (World.init.run (h0 ++ (env0, o) :: later)) x = some s)
include hm hs hp hf hc hx

private theorem together : ∃ (ops : List (Env F × Op F)) (w' : World F), ProgCall (World.init.run (h0 ++ (env0, o) :: (later ++ ops))) (.call x c) y w' ∧
    recordsIn (World.init.run (h0 ++ (env0, o) :: (later ++ ops))) x = some s ∧
    (book (step env0 o (World.init.run h0)).1 s [] (later ++ ops)).Perm
      (book (step env0 o (World.init.run h0)).1 s [] later ++ recordedBy (World.init.run (h0 ++ (env0, o) :: later)) s h) := by
  obtain ⟨ops, w', h1, h2⟩ := C128_order _ hs hp hf
  rw [past_append] at h2
  have hw := run_ok (h0 ++ (env0, o) :: later) (F := F)
  refine ⟨ops, w', h2, ?_, ?_⟩
  · rw [← past_append, World.run_append, recordsIn_le hw (hw.run ops).2 (by intro h; simp [recordsIn, h] at hx)]
    exact hx
  · have hsplit : ∀ (l : List (Env F × Op F)) (w : World F) g, book w s g (l ++ ops) = book (w.run l) s (book w s g l) ops := by
      intro l
      induction l with
      | nil => intros; rfl
      | cons e l ih => intros; exact ih _ _
    rw [hsplit, ← show World.init.run (h0 ++ (env0, o) :: later) = (step env0 o (World.init.run h0)).1.run later by rw [World.run_append]; rfl,
      book_add hw hw (World.Le.refl _) s _ ops, recordedBy_eq]
    · exact (h1.filterMap _).append_left _
    · intro z d hz
      obtain ⟨u, hu⟩ := mem_callsMade (h1.mem_iff.1 hz)
      exact Together.direct hp (e := .inv u (.call z d)) (List.mem_append_left _ hu) rfl
    · intro z hz hr
      obtain ⟨u, hu⟩ := mem_callsMade (h1.mem_iff.1 hz)
      exact hc u z hr hu

/-- C128: when all have finished, `Count()` of a sample, and of every histogram on it, is the number of values recorded before plus those that the goroutines have recorded. -/
theorem C128_count (hcall : c = .count) : y = .call (.int (Int64.ofNat ((book (step env0 o (World.init.run h0)).1 s [] later).length +
    (recordedBy (World.init.run (h0 ++ (env0, o) :: later)) s h).length))) := by
  subst hcall
  obtain ⟨ops, w', h2, h3, h4⟩ := together h0 env0 o hm later hs hp hf hc hx
  rw [← List.length_append, ← h4.length_eq]
  exact shows_int h2 fun env => C126_count h0 env0 o hm (later ++ ops) env x h3

/-- C128: and as long as they fit, every statistic but `Variance` and `StdDev` is that of all these values: what `SampleMax`, … return for the list of them. -/
theorem C128_stats (hfit : (book (step env0 o (World.init.run h0)).1 s [] later).length + (recordedBy (World.init.run (h0 ++ (env0, o) :: later)) s h).length ≤ k)
    (d : StatCall F) (hcall : c = .stat d) (hd : orderFree (.stat d) = true) :
    y = .call (statSeen (statOf (book (step env0 o (World.init.run h0)).1 s [] later ++ recordedBy (World.init.run (h0 ++ (env0, o) :: later)) s h) d)) := by
  subst hcall
  obtain ⟨ops, w', h2, h3, h4⟩ := together h0 env0 o hm later hs hp hf hc hx
  cases y with
  | call z =>
    obtain ⟨env, rfl, h5⟩ := h2
    have h6 := C126_stats h0 env0 o hm (later ++ ops) (by rw [h4.length_eq, List.length_append]; exact hfit) env x h3 d hd
    rw [statOf_perm h4 d hd] at h6
    unfold observe at h6
    rw [step_call, h6] at h5
    exact congrArg _ (shows_stat h5)
  | _ => exact h2.elim

end

end

/-! ### An example: the sample, histogram and counter of `progPast` -/

/-- Goroutine 1 records 5 and adds 1 while goroutine 2 adds 2 and records 6: the calls overlap. -/
def togetherHist : List (HEv (ProgOp F64) (ProgSeen F64)) :=
  [.inv 1 (.call 1 (.update 5)), .inv 2 (.call 2 (.inc 2)), .ret 2 (.call 2 (.inc 2)) (.call .unit), .inv 2 (.call 1 (.update 6)), .ret 1 (.call 1 (.update 5)) (.call .unit), .inv 1 (.call 2 (.inc 1)),
    .ret 2 (.call 1 (.update 6)) (.call .unit), .ret 1 (.call 2 (.inc 1)) (.call .unit)]

private theorem run_of {S L I E : Type} {M : Machine S L I E} {s : S} {l : Nat → L} {sched : List (Nat × I)} {tr : List E} (h : (M.run s l sched).map (fun x => x.2.2) = some tr) :
    ∃ s' ls, M.run s l sched = some (s', ls, tr) := by
  cases hr : M.run s l sched with
  | none => rw [hr] at h; cases h
  | some x =>
    rw [hr] at h
    cases h
    exact ⟨_, _, rfl⟩

/-- Goroutine 2 gets the mutex of the sample first. -/
def togetherSample : List (Nat × BodyIn (SampleCall F64) Nat) :=
  [(1, .call (.update 5)), (2, .call (.update 6))] ++ bodySteps 2 6 ++ bodySteps 1 7 ++ [(2, .step)]

def togetherSampleTrace : List (CEv (SampleCall F64) (SampleRes F64)) :=
  [.inv 1 (.update 5), .inv 2 (.update 6), .lin 2 (.update 6) .unit, .lin 1 (.update 5) .unit, .ret 1 (.update 5) .unit, .ret 2 (.update 6) .unit]

def togetherCounter : List (Nat × AtomIn CounterM) :=
  [(2, .call (.inc 2)), (2, .step), (2, .step), (1, .call (.inc 1)), (1, .step), (1, .step), (2, .call .count), (2, .step), (2, .step)]

def togetherCounterTrace : List (CEv CounterM AtomRes) :=
  [.inv 2 (.inc 2), .lin 2 (.inc 2) .unit, .ret 2 (.inc 2) .unit, .inv 1 (.inc 1), .lin 1 (.inc 1) .unit, .ret 1 (.inc 1) .unit, .inv 2 .count, .lin 2 .count (.int 3), .ret 2 .count (.int 3)]

theorem togetherFinished : Finished togetherHist := by
  intro t
  simp [togetherHist, busyAfter, Function.update]
  intros; split_ifs; rfl

/-- The counter is asked at the end. -/
theorem togetherCount : RegProgramHistory sortProg (World.init.run progPast) (togetherHist ++ [.inv 2 (.call 2 .count), .ret 2 (.call 2 .count) (.call (.int 3))]) := by
  refine ⟨?_, ?_, ?_, ?_, ?_, ?_⟩
  · simp [togetherHist, OneCall, Function.update]
  · intro k
    match k with
    | 0 =>
      obtain ⟨s', ls, h⟩ := run_of (M := bodyMachine (uniformBody (F := F64) sortProg)) (s := ⟨none, ⟨0, 2, []⟩⟩) (l := fun _ => .idle) (sched := togetherSample) (tr := togetherSampleTrace) (by decide +kernel)
      refine ⟨[.inv 1 (1, .update 5), .inv 2 (1, .update 6), .ret 1 (1, .update 5) .unit, .ret 2 (1, .update 6) .unit], ?_, togetherSample, s', ls, togetherSampleTrace, h, ?_⟩
      · exact .cons (.inv rfl) (.cons (.inv rfl) (.cons (.ret (g := fun _ x => ProgSeen.call x) (r' := Spec.Seen.unit) rfl) (.cons (.ret (g := fun _ x => ProgSeen.call x) (r' := Spec.Seen.unit) rfl) .nil)))
      · exact .cons (.inv rfl) (.cons (.inv rfl) (.cons (.ret (r' := SampleRes.unit) rfl) (.cons (.ret (r' := SampleRes.unit) rfl) .nil)))
    | 1 => exact ⟨[], .nil, rfl⟩
    | 2 =>
      obtain ⟨s', ls, h⟩ := run_of (M := atomMachine counterDo) (s := ⟨0⟩) (l := fun _ => .idle) (sched := togetherCounter) (tr := togetherCounterTrace) (by decide +kernel)
      refine ⟨[.inv 2 (2, .inc 2), .ret 2 (2, .inc 2) .unit, .inv 1 (2, .inc 1), .ret 1 (2, .inc 1) .unit, .inv 2 (2, .count), .ret 2 (2, .count) (.int 3)], ?_, togetherCounter, s', ls, togetherCounterTrace, h, ?_⟩
      · exact .cons (.inv rfl) (.cons (.ret (g := fun _ x => ProgSeen.call x) (r' := Spec.Seen.unit) rfl) (.cons (.inv rfl) (.cons (.ret (g := fun _ x => ProgSeen.call x) (r' := Spec.Seen.unit) rfl)
          (.cons (.inv rfl) (.cons (.ret (g := fun _ x => ProgSeen.call x) (r' := Spec.Seen.int 3) rfl) .nil)))))
      · exact .cons (.inv rfl) (.cons (.ret (r' := AtomRes.unit) rfl) (.cons (.inv rfl) (.cons (.ret (r' := AtomRes.unit) rfl) (.cons (.inv rfl) (.cons (.ret (r' := AtomRes.int 3) rfl) .nil)))))
    | n + 3 => exact ⟨[], .nil, rfl⟩
  · exact fun i => ⟨[], _, _, [], rfl, .nil⟩
  · rfl
  · simp only [togetherHist, List.cons_append, List.nil_append, List.mem_cons, List.not_mem_nil, or_false]
    rintro e (rfl | rfl | rfl | rfl | rfl | rfl | rfl | rfl | rfl | rfl) r c s he hr <;> cases he <;> rfl
  · simp [togetherHist, evOp, passesOld]

/-- The histogram is asked for the sum at the end. -/
theorem togetherSum : RegProgramHistory sortProg (World.init.run progPast) (togetherHist ++ [.inv 1 (.call 1 (.stat .sum)), .ret 1 (.call 1 (.stat .sum)) (.call (.int 11))]) := by
  refine ⟨?_, ?_, ?_, ?_, ?_, ?_⟩
  · simp [togetherHist, OneCall, Function.update]
  · intro k
    match k with
    | 0 =>
      obtain ⟨s', ls, h⟩ := run_of (M := bodyMachine (uniformBody (F := F64) sortProg)) (s := ⟨none, ⟨0, 2, []⟩⟩) (l := fun _ => .idle) (sched := togetherSample ++ (1, .call (.stat .sum)) :: bodySteps 1 6)
        (tr := togetherSampleTrace ++ [.inv 1 (.stat .sum), .lin 1 (.stat .sum) (.stat (.int 11)), .ret 1 (.stat .sum) (.stat (.int 11))]) (by decide +kernel)
      refine ⟨[.inv 1 (1, .update 5), .inv 2 (1, .update 6), .ret 1 (1, .update 5) .unit, .ret 2 (1, .update 6) .unit, .inv 1 (1, .stat .sum), .ret 1 (1, .stat .sum) (.int 11)], ?_, _, s', ls, _, h, ?_⟩
      · exact .cons (.inv rfl) (.cons (.inv rfl) (.cons (.ret (g := fun _ x => ProgSeen.call x) (r' := Spec.Seen.unit) rfl) (.cons (.ret (g := fun _ x => ProgSeen.call x) (r' := Spec.Seen.unit) rfl)
          (.cons (.inv rfl) (.cons (.ret (g := fun _ x => ProgSeen.call x) (r' := Spec.Seen.int 11) rfl) .nil)))))
      · exact .cons (.inv rfl) (.cons (.inv rfl) (.cons (.ret (r' := SampleRes.unit) rfl) (.cons (.ret (r' := SampleRes.unit) rfl) (.cons (.inv rfl) (.cons (.ret (r' := SampleRes.stat (.int 11)) rfl) .nil)))))
    | 1 => exact ⟨[], .nil, rfl⟩
    | 2 =>
      obtain ⟨s', ls, h⟩ := run_of (M := atomMachine counterDo) (s := ⟨0⟩) (l := fun _ => .idle) (sched := togetherCounter.take 6) (tr := togetherCounterTrace.take 6) (by decide +kernel)
      refine ⟨[.inv 2 (2, .inc 2), .ret 2 (2, .inc 2) .unit, .inv 1 (2, .inc 1), .ret 1 (2, .inc 1) .unit], ?_, _, s', ls, _, h, ?_⟩
      · exact .cons (.inv rfl) (.cons (.ret (g := fun _ x => ProgSeen.call x) (r' := Spec.Seen.unit) rfl) (.cons (.inv rfl) (.cons (.ret (g := fun _ x => ProgSeen.call x) (r' := Spec.Seen.unit) rfl) .nil)))
      · exact .cons (.inv rfl) (.cons (.ret (r' := AtomRes.unit) rfl) (.cons (.inv rfl) (.cons (.ret (r' := AtomRes.unit) rfl) .nil)))
    | n + 3 => exact ⟨[], .nil, rfl⟩
  · exact fun i => ⟨[], _, _, [], rfl, .nil⟩
  · rfl
  · simp only [togetherHist, List.cons_append, List.nil_append, List.mem_cons, List.not_mem_nil, or_false]
    rintro e (rfl | rfl | rfl | rfl | rfl | rfl | rfl | rfl | rfl | rfl) r c s he hr <;> cases he <;> rfl
  · simp [togetherHist, evOp, passesOld]

-- C128_afterwards, C128_order: what `togetherHist` leaves.
example : callsMade togetherHist = [.call 1 (.update 5), .call 2 (.inc 2), .call 1 (.update 6), .call 2 (.inc 1)] := rfl

-- C128_counter: 1 + 2.
example : Creates (World.init.run (progPast.take 2)) (envAt 0) (.new .counter) .counter 2 := ⟨.inl rfl, rfl, _, rfl, rfl⟩
example : added 2 togetherHist = 3 := by decide +kernel
example : ∀ u, HEv.inv u (.call 2 .clear) ∉ togetherHist := by simp [togetherHist]

-- C128_count and C128_stats: the values 5 and 6 in the sample 0, through the histogram 1.
example : Makes (World.init.run ([] : List (Env F64 × Op F64))) (envAt 0) (.new (.uniform 2)) 0 2 := ⟨by decide, ⟨_, .inl rfl, rfl⟩, rfl, _, rfl, fun h => nomatch h⟩
example : recordedBy (World.init.run progPast) 0 togetherHist = [5, 6] := by decide +kernel
example : recordsIn (World.init.run progPast) 1 = some 0 := by decide +kernel

-- C128_gauge: two goroutines set a gauge, it keeps the value of the one that stores last, whichever returns first.
example : RegProgramHistory sortProg (World.init.run [(envAt 0, .new .gauge)] : World F64)
    ([.inv 1 (.call 0 (.update 7)), .inv 2 (.call 0 (.update 8)), .ret 1 (.call 0 (.update 7)) (.call .unit), .ret 2 (.call 0 (.update 8)) (.call .unit)] ++
      [.inv 1 (.call 0 .value), .ret 1 (.call 0 .value) (.call (.int 7))]) := by
  refine ⟨?_, ?_, ?_, ?_, ?_, ?_⟩
  · simp [OneCall, Function.update]
  · intro k
    match k with
    | 0 =>
      obtain ⟨s', ls, h⟩ := run_of (M := atomMachine gaugeDo) (s := (0 : Int64)) (l := fun _ => .idle)
        (sched := [(1, .call (.update 7)), (2, .call (.update 8)), (2, .step), (1, .step), (1, .step), (2, .step), (1, .call .value), (1, .step), (1, .step)])
        (tr := [.inv 1 (.update 7), .inv 2 (.update 8), .lin 2 (.update 8) .unit, .lin 1 (.update 7) .unit, .ret 1 (.update 7) .unit, .ret 2 (.update 8) .unit, .inv 1 .value,
          .lin 1 .value (.int 7), .ret 1 .value (.int 7)]) (by decide +kernel)
      refine ⟨[.inv 1 (0, .update 7), .inv 2 (0, .update 8), .ret 1 (0, .update 7) .unit, .ret 2 (0, .update 8) .unit, .inv 1 (0, .value), .ret 1 (0, .value) (.int 7)], ?_, _, s', ls, _, h, ?_⟩
      · exact .cons (.inv rfl) (.cons (.inv rfl) (.cons (.ret (g := fun _ x => ProgSeen.call x) (r' := Spec.Seen.unit) rfl) (.cons (.ret (g := fun _ x => ProgSeen.call x) (r' := Spec.Seen.unit) rfl)
          (.cons (.inv rfl) (.cons (.ret (g := fun _ x => ProgSeen.call x) (r' := Spec.Seen.int 7) rfl) .nil)))))
      · exact .cons (.inv rfl) (.cons (.inv rfl) (.cons (.ret (r' := AtomRes.unit) rfl) (.cons (.ret (r' := AtomRes.unit) rfl) (.cons (.inv rfl) (.cons (.ret (r' := AtomRes.int 7) rfl) .nil)))))
    | n + 1 => exact ⟨[], .nil, rfl⟩
  · exact fun i => ⟨[], _, _, [], rfl, .nil⟩
  · rfl
  · simp only [List.cons_append, List.nil_append, List.mem_cons, List.not_mem_nil, or_false]
    rintro e (rfl | rfl | rfl | rfl | rfl | rfl) r c s he hr <;> cases he <;> rfl
  · simp [evOp, passesOld]

-- C128_gauge_float.
example : RegProgramHistory sortProg (World.init.run [(envAt 0, .new .gaugeF)] : World F64)
    ([.inv 1 (.call 0 (.updateF 7)), .inv 2 (.call 0 (.updateF 8)), .ret 1 (.call 0 (.updateF 7)) (.call .unit), .ret 2 (.call 0 (.updateF 8)) (.call .unit)] ++
      [.inv 1 (.call 0 .value), .ret 1 (.call 0 .value) (.call (.bits 7))]) := by
  refine ⟨?_, ?_, ?_, ?_, ?_, ?_⟩
  · simp [OneCall, Function.update]
  · intro k
    match k with
    | 0 =>
      obtain ⟨s', ls, h⟩ := run_of (M := atomMachine gaugeFDo) (s := (0 : FloatBits)) (l := fun _ => .idle)
        (sched := [(1, .call (.update 7)), (2, .call (.update 8)), (2, .step), (1, .step), (1, .step), (2, .step), (1, .call .value), (1, .step), (1, .step)])
        (tr := [.inv 1 (.update 7), .inv 2 (.update 8), .lin 2 (.update 8) .unit, .lin 1 (.update 7) .unit, .ret 1 (.update 7) .unit, .ret 2 (.update 8) .unit, .inv 1 .value,
          .lin 1 .value (.bits 7), .ret 1 .value (.bits 7)]) (by decide +kernel)
      refine ⟨[.inv 1 (0, .updateF 7), .inv 2 (0, .updateF 8), .ret 1 (0, .updateF 7) .unit, .ret 2 (0, .updateF 8) .unit, .inv 1 (0, .value), .ret 1 (0, .value) (.bits 7)], ?_, _, s', ls, _, h, ?_⟩
      · exact .cons (.inv rfl) (.cons (.inv rfl) (.cons (.ret (g := fun _ x => ProgSeen.call x) (r' := Spec.Seen.unit) rfl) (.cons (.ret (g := fun _ x => ProgSeen.call x) (r' := Spec.Seen.unit) rfl)
          (.cons (.inv rfl) (.cons (.ret (g := fun _ x => ProgSeen.call x) (r' := Spec.Seen.bits 7) rfl) .nil)))))
      · exact .cons (.inv rfl) (.cons (.inv rfl) (.cons (.ret (r' := AtomRes.unit) rfl) (.cons (.ret (r' := AtomRes.unit) rfl) (.cons (.inv rfl) (.cons (.ret (r' := AtomRes.bits 7) rfl) .nil)))))
    | n + 1 => exact ⟨[], .nil, rfl⟩
  · exact fun i => ⟨[], _, _, [], rfl, .nil⟩
  · rfl
  · simp only [List.cons_append, List.nil_append, List.mem_cons, List.not_mem_nil, or_false]
    rintro e (rfl | rfl | rfl | rfl | rfl | rfl) r c s he hr <;> cases he <;> rfl
  · simp [evOp, passesOld]

end GoMetrics
