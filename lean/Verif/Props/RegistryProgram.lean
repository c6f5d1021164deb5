import Verif.Lemmas.RegistryProgram
import Verif.Props.SampleConc

/-! Property theorems C103: concurrent programs that use metrics and registries behave as if the calls were made one at a time. -/

namespace GoMetrics
open Spec

variable {F : Type} [GoFloat F] [GoSqrt F] [GoExp F]

/-- **C103.** After any history `past` of the program, goroutines use registries, counters, gauges, samples and histograms concurrently. What they see is what they would see if the calls were made one at a time,
in an order in which a call that has returned comes before those invoked later, in the model of the whole library. -/
theorem C103_program (past : List (Env F × Op F)) {sorter : Nat → MemProg Unit} (hs : SortsInPlace sorter) {h : List (HEv (ProgOp F) (ProgSeen F))}
    (hp : RegProgramHistory sorter (World.init.run past) h) : Linearizable ProgCall (World.init.run past) h :=
  regProgram_linearizable hs (run_ok past) hp

/-- **C103.** The states that such an order goes through are those of histories of the library, about which the other theorems are: the calls made one after the other (`Each` changes nothing). -/
theorem C103_history {w w' : World F} {l : List (ProgOp F × ProgSeen F)} (h : LegalRun ProgCall w l w') :
    ∃ ops : List (Env F × Op F), w' = w.run ops ∧ ops.map Prod.snd = l.filterMap fun x => match x.1 with
      | .call r c => some (.call r c)
      | .reg g o => some (.reg g o)
      | .each _ => none := by
  induction h with
  | nil => exact ⟨[], rfl, rfl⟩
  | @cons s s1 s2 o r l hs _ ih =>
    obtain ⟨ops, rfl, h2⟩ := ih
    cases o with
    | call r0 c =>
      cases r with
      | call x =>
        obtain ⟨env, rfl, -⟩ := hs
        exact ⟨(env, .call r0 c) :: ops, rfl, by simpa using h2⟩
      | _ => exact hs.elim
    | reg g o =>
      cases r with
      | reg x =>
        obtain ⟨env, h3⟩ := hs
        exact ⟨(env, .reg g o) :: ops, by rw [World.run, h3], by simpa using h2⟩
      | _ => exact hs.elim
    | each g =>
      cases r with
      | visit v =>
        obtain ⟨env, h3⟩ := hs
        refine ⟨ops, ?_, by simpa using h2⟩
        cases hb : base g with
        | none =>
          exfalso
          cases g with
          | std i => cases hb
          | foreign => cases h3
          | prefixed u p =>
            have : findPrefix (.prefixed u p) [] = none := by rw [findPrefix_base, hb]; rfl
            rw [eachList, this] at h3
            cases h3
        | some i =>
          rw [eachList_base _ _ _ hb] at h3
          cases h3
          rfl
      | _ => exact hs.elim

/-- **C103.** For calls that do not overlap, the order can only be that of the calls: "as if the calls were made one at a time" then says what the library does without concurrency. -/
theorem C103_alone (w : World F) (l : List (Nat × ProgOp F × ProgSeen F)) : Linearizable ProgCall w (oneByOne l) ↔ ∃ w', LegalRun ProgCall w (l.map Prod.snd) w' :=
  oneByOne_legal ProgCall w l

/-! ### An example -/

/-- A counter (object 0). -/
def regProgPast : List (Env F64 × Op F64) := [(envAt 0, .new .counter)]

/-- The default registry, seen with the prefix "p". -/
def regProgPrefixed : Reg := .prefixed (.std 0) [112]

/-- Goroutine 1 registers the counter as "a" with the prefix "p" and increments it. Goroutine 2 meanwhile calls `Each` of the default registry, then `Get("pa")`, and asks the counter it gets. -/
def regProgHist : List (HEv (ProgOp F64) (ProgSeen F64)) :=
  [.inv 1 (.reg regProgPrefixed (.register [97] (.obj 0))), .inv 2 (.each (.std 0)), .ret 1 (.reg regProgPrefixed (.register [97] (.obj 0))) (.reg .nil), .inv 1 (.call 0 (.inc 3)),
    .ret 2 (.each (.std 0)) (.visit [([112, 97], 0)]), .inv 2 (.reg (.std 0) (.get [112, 97])), .ret 1 (.call 0 (.inc 3)) (.call .unit), .ret 2 (.reg (.std 0) (.get [112, 97])) (.reg (.metric 0)),
    .inv 2 (.call 0 .count), .ret 2 (.call 0 .count) (.call (.int 3))]

def regProgSched : List (Nat × RIn Ref) :=
  [(1, .call (.register [112, 97] 0)), (2, .call .each), (1, .step), (1, .step), (1, .step), (1, .step), (1, .step), (2, .step), (2, .order id fun _ => .refl _), (2, .step), (2, .step), (2, .step),
    (2, .step), (2, .step), (2, .call (.get [112, 97])), (2, .step), (2, .step), (2, .step), (2, .step)]

def regProgTrace : List (REv Ref) :=
  [.call (.inv 1 (.register [112, 97] 0)), .call (.inv 2 .each), .call (.lin 1 (.register [112, 97] 0) (.dup false)), .call (.ret 1 (.register [112, 97] 0) (.dup false)),
    .call (.lin 2 .each (.visit [([112, 97], 0)])), .visit 2 [112, 97] 0, .call (.ret 2 .each (.visit [([112, 97], 0)])), .call (.inv 2 (.get [112, 97])),
    .call (.lin 2 (.get [112, 97]) (.value (some 0))), .call (.ret 2 (.get [112, 97]) (.value (some 0)))]

def regProgCounter : List (Nat × AtomIn CounterM) := [(1, .call (.inc 3)), (1, .step), (1, .step), (2, .call .count), (2, .step), (2, .step)]

def regProgCounterTrace : List (CEv CounterM AtomRes) := [.inv 1 (.inc 3), .lin 1 (.inc 3) .unit, .ret 1 (.inc 3) .unit, .inv 2 .count, .lin 2 .count (.int 3), .ret 2 .count (.int 3)]

private theorem run_of_trace' {S L I E : Type} {M : Machine S L I E} {s : S} {l : Nat → L} {sched : List (Nat × I)} {tr : List E} (h : (M.run s l sched).map (fun x => x.2.2) = some tr) :
    ∃ s' ls, M.run s l sched = some (s', ls, tr) := by
  cases hr : M.run s l sched with
  | none => rw [hr] at h; cases h
  | some x =>
    rw [hr] at h
    cases h
    exact ⟨_, _, rfl⟩

example : RegProgramHistory sortProg (World.init.run regProgPast) regProgHist := by
  refine ⟨?_, ?_, ?_, ?_, ?_, ?_⟩
  · simp [regProgHist, OneCall, Function.update]
  · intro k
    match k with
    | 0 =>
      obtain ⟨s', ls, h⟩ := run_of_trace' (M := atomMachine counterDo) (s := ⟨0⟩) (l := fun _ => .idle) (sched := regProgCounter) (tr := regProgCounterTrace) (by decide +kernel)
      refine ⟨[.inv 1 (0, .inc 3), .ret 1 (0, .inc 3) .unit, .inv 2 (0, .count), .ret 2 (0, .count) (.int 3)], ?_, regProgCounter, s', ls, regProgCounterTrace, h, ?_⟩
      · exact .cons (.inv rfl) (.cons (.ret (g := fun _ x => ProgSeen.call x) (r' := Seen.unit) rfl) (.cons (.inv rfl) (.cons (.ret (g := fun _ x => ProgSeen.call x) (r' := Seen.int 3) rfl) .nil)))
      · exact .cons (.inv rfl) (.cons (.ret (r' := AtomRes.unit) rfl) (.cons (.inv rfl) (.cons (.ret (r' := AtomRes.int 3) rfl) .nil)))
    | n + 1 => exact ⟨[], .nil, rfl⟩
  · intro i
    match i with
    | 0 =>
      obtain ⟨s', ls, h⟩ := run_of_trace' (M := regMachine (kindsIn (World.init.run regProgPast))) (s := .init []) (l := fun _ => .idle) (sched := regProgSched) (tr := regProgTrace) rfl
      refine ⟨regProgSched, s', ls, regProgTrace, h, ?_⟩
      exact .cons (.inv rfl) (.cons (.inv rfl) (.cons (.ret (r' := RRes.dup false) rfl) (.cons (.ret (r' := RRes.visit [([112, 97], 0)]) rfl) (.cons (.inv rfl)
        (.cons (.ret (r' := RRes.value (some 0)) rfl) .nil)))))
    | n + 1 => exact ⟨[], _, _, [], rfl, .nil⟩
  · rfl
  · simp only [regProgHist, List.mem_cons, List.not_mem_nil, or_false]
    rintro e (rfl | rfl | rfl | rfl | rfl | rfl | rfl | rfl | rfl | rfl) r c s he hr <;> cases he <;> rfl
  · simp only [regProgHist, List.mem_cons, List.not_mem_nil, or_false]
    rintro e (rfl | rfl | rfl | rfl | rfl | rfl | rfl | rfl | rfl | rfl) <;> first | exact trivial | exact fun h => nomatch h

-- `Register` has returned: a `Get` that finds nothing cannot be explained.
example : ¬ Linearizable ProgCall (World.init.run regProgPast)
    (oneByOne [(1, .reg (.std 0) (.register [97] (.obj 0)), .reg .nil), (2, .reg (.std 0) (.get [97]), .reg .nil)]) := by
  rw [C103_alone]
  rintro ⟨w', h⟩
  cases h with
  | cons h1 h =>
    cases h with
    | cons h2 _ =>
      obtain ⟨env, h1⟩ := h1
      obtain ⟨env', h2⟩ := h2
      cases h1
      cases h2

end GoMetrics
