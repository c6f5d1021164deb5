import Verif.Lemmas.UseConc
import Verif.Model.AtomicConc
import Verif.Spec.Basic
import Verif.Props.Simple

/-! Property theorems C104: using metrics by name (`GetOrRegisterCounter(name, r).Inc(1)` and the like) from any number of goroutines. -/

set_option linter.unusedSectionVars false

namespace GoMetrics
open Spec

section
variable {A D R : Type} (P : Str → Prop) (n0 : Nat) (K : Kinds Nat) (hK : ∀ v, n0 ≤ v → K.metric v = true) (m0 : List (Str × Nat)) (h0 : (m0.map Prod.fst).Nodup)
  (hfree : ∀ n, P n → find m0 n = none) (hold : ∀ n v, find m0 n = some v → v < n0) (init : A) (cells : Nat → A) (eff : A → D → A × R) (sched : List (Nat × UseIn D))
  (hl : ∀ x ∈ sched, UseIn.leaves P n0 x.2) (s : UseS A) (ls : Nat → UseFrame D R) (tr : List (UseEv D R))
  (h : (useMachine K init eff).run ⟨.init m0, cells, n0⟩ (fun _ => .idle) sched = some (s, ls, tr))
include hK h0 hfree hold hl h

/-- **C104, one metric per name.** Goroutines use metrics by name: each use is `GetOrRegister`, then a method of the metric it returns. If the names `P` are free at the start, and nobody unregisters them
or registers under them otherwise, then it looks as if there was one metric for every name from the start: no use goes to a metric that was lost in a race to register. -/
theorem C104_names : Linearizable (OnePerName P eff) (fun _ => init) (hist (namedUses tr)) := by
  obtain ⟨σ, hr, -⟩ := (use_inv hK h0 hfree hold hl h).run
  exact ⟨namedUses tr, _, σ, rfl, use_wf h, hr⟩

/-- **C104, what the registry holds.** And the metric that the registry has for a name is the one that all uses of the name have changed: it is there as soon as one use has taken effect,
and its state is what the uses, one after the other, leave behind. -/
theorem C104_registered : ∃ σ, LegalRun (OnePerName P eff) (fun _ => init) (linSeq (namedUses tr)) σ ∧
    ∀ n, P n → (∀ v, find s.reg.metrics n = some v → s.cells v = σ n) ∧ ((∃ d r, ((n, d), r) ∈ linSeq (namedUses tr)) → ∃ v, find s.reg.metrics n = some v) := by
  have hi := use_inv hK h0 hfree hold hl h
  obtain ⟨σ, hr, hσ⟩ := hi.run
  refine ⟨σ, hr, fun n hn => ⟨fun v hv => ?_, fun ⟨d, r, hx⟩ => ?_⟩⟩
  · have := hσ n hn
    rw [hv] at this
    exact this.symm
  · exact Option.ne_none_iff_exists'.1 (hi.used _ hx hn)

end

/-- By how much a call changes a counter. -/
def changes : CounterM → Int
  | .inc i => i.toInt
  | .dec i => - i.toInt
  | _ => 0

private theorem counted {P : Str → Prop} {name : Str} (hP : P name) {σ σ' : Str → StandardCounter} {l : List ((Str × CounterM) × AtomRes)}
    (h : LegalRun (OnePerName P counterDo) σ l σ') (hc : ∀ x ∈ l, x.1 ≠ (name, .clear)) :
    (σ' name).count.toInt = wrap64 ((σ name).count.toInt + (l.map fun x => if x.1.1 = name then changes x.1.2 else 0).sum) := by
  induction h with
  | nil => simp [wrap64]
  | @cons s s1 s2 o r l hs _ ih =>
    rw [ih (fun x hx => hc x (List.mem_cons_of_mem _ hx))]
    obtain ⟨n, m⟩ := o
    by_cases hn : n = name
    · subst hn
      have := (hs.1 hP).2
      rw [show s1 n = (counterDo (s n) m).1 from this]
      cases m with
      | clear => exact absurd rfl (hc _ List.mem_cons_self)
      | inc i => simp [counterDo, StandardCounter.inc, changes, wrap64, add_assoc]
      | dec i => simp [counterDo, StandardCounter.dec, changes, wrap64, add_assoc]
      | count => simp [counterDo, changes]
      | snapshot => simp [counterDo, changes]
    · rw [show s1 name = s name from hs.2 name hP (Ne.symm hn)]
      simp [hn]

/-- **C104, nothing is lost.** Goroutines call `GetOrRegisterCounter(name, r).Inc(i)` and `.Dec(i)`, with this and other names, and race to create the counters. When all have finished, the counter that the
registry has for the name shows the sum of all these calls (modulo 2⁶⁴), provided that there was at least one. -/
theorem C104_count (name : Str) (n0 : Nat) (K : Kinds Nat) (hK : ∀ v, n0 ≤ v → K.metric v = true) (m0 : List (Str × Nat)) (h0 : (m0.map Prod.fst).Nodup) (hfree : find m0 name = none)
    (hold : ∀ n v, find m0 n = some v → v < n0) (cells : Nat → StandardCounter) (sched : List (Nat × UseIn CounterM)) (hl : ∀ x ∈ sched, UseIn.leaves (· = name) n0 x.2) (s : UseS StandardCounter)
    (ls : Nat → UseFrame CounterM AtomRes) (tr : List (UseEv CounterM AtomRes)) (h : (useMachine K ⟨0⟩ counterDo).run ⟨.init m0, cells, n0⟩ (fun _ => .idle) sched = some (s, ls, tr))
    (hdone : ∀ t, ls t = .idle) (hclear : ∀ t, .inv t (name, .clear) ∉ namedUses tr) (hsome : ∃ t m, .inv t (name, m) ∈ namedUses tr) :
    ∃ v, find s.reg.metrics name = some v ∧ (s.cells v).count.toInt = wrap64 ((invs (namedUses tr)).map fun x => if x.2.1 = name then changes x.2.2 else 0).sum := by
  have hwf := use_wf h
  rw [show (fun t => (ls t).abs) = allIdle by funext t; rw [hdone t]; rfl] at hwf
  obtain ⟨σ, hr, hσ⟩ := C104_registered (· = name) n0 K hK m0 h0 (by rintro n rfl; exact hfree) hold ⟨0⟩ cells counterDo sched hl s ls tr h
  have hperm := hwf.lins_perm_invs
  obtain ⟨t, m, ht⟩ := hsome
  have hlin : ∃ d r, ((name, d), r) ∈ linSeq (namedUses tr) := by
    have h1 : (t, (name, m)) ∈ invs (namedUses tr) := by
      simp only [invs, List.mem_filterMap]
      exact ⟨_, ht, rfl⟩
    have h2 : (name, m) ∈ (lins (namedUses tr)).map Prod.snd := List.mem_map.2 ⟨_, hperm.mem_iff.2 h1, rfl⟩
    rw [← linSeq_map_fst] at h2
    obtain ⟨⟨o, r⟩, h3, h4⟩ := List.mem_map.1 h2
    cases h4
    exact ⟨m, r, h3⟩
  obtain ⟨v, hv⟩ := (hσ name rfl).2 hlin
  refine ⟨v, hv, ?_⟩
  rw [(hσ name rfl).1 v hv, counted (P := (· = name)) rfl hr]
  · rw [show ((linSeq (namedUses tr)).map fun x => if x.1.1 = name then changes x.1.2 else 0) = ((linSeq (namedUses tr)).map Prod.fst).map fun o => if o.1 = name then changes o.2 else 0 by rw [List.map_map]; rfl,
      linSeq_map_fst, List.map_map]
    simp only [Function.comp_def]
    rw [(hperm.map fun x => if x.2.1 = name then changes x.2.2 else 0).sum_eq]
    simp
  · intro x hx he
    have h1 : x.1 ∈ (lins (namedUses tr)).map Prod.snd := by rw [← linSeq_map_fst]; exact List.mem_map_of_mem hx
    obtain ⟨⟨u, o⟩, h2, h3⟩ := List.mem_map.1 h1
    have h4 := hperm.mem_iff.1 h2
    simp only [invs, List.mem_filterMap] at h4
    obtain ⟨e, he1, he2⟩ := h4
    cases e <;> simp at he2
    obtain ⟨rfl, rfl⟩ := he2
    simp at h3
    rw [h3, he] at he1
    exact hclear _ he1

/-! Two goroutines race: both find the name free under the read lock; goroutine 1 gets the write lock first and makes counter 3, goroutine 0 then finds it. Both increments are in counter 3.
A third goroutine registers the old counter 2 under another name meanwhile. -/
private def raceKinds : Kinds Nat := ⟨fun _ => true, fun _ => false, fun _ => false⟩
private def regs (t n : Nat) : List (Nat × UseIn CounterM) := List.replicate n (t, .reg .step)
private def useSched : List (Nat × UseIn CounterM) :=
  [(0, .use [97] (.inc 5)), (1, .use [97] (.inc 7)), (0, .reg .step), (1, .reg .step), (0, .reg .step), (1, .reg .step), (0, .reg .step), (1, .reg .step), (1, .reg .step), (1, .reg .step), (1, .reg .step),
    (1, .reg (.returns 3)), (1, .reg .step), (1, .step), (2, .other (.register [98] 2))] ++ regs 0 4 ++ [(0, .step), (0, .step), (1, .step), (1, .step)] ++ regs 2 4 ++ [(0, .step), (2, .step)]
private def useEnd : Option (List (Str × Nat) × Int64 × List (Nat × (Str × CounterM))) :=
  ((useMachine raceKinds ⟨0⟩ counterDo).run ⟨.init [([99], 1)], fun _ => ⟨0⟩, 3⟩ (fun _ => .idle) useSched).map fun x => (x.1.reg.metrics, (x.1.cells 3).count, invs (namedUses x.2.2))
example : useEnd = some ([([98], 2), ([97], 3), ([99], 1)], 12, [(0, ([97], .inc 5)), (1, ([97], .inc 7))]) := rfl
example : ∀ x ∈ useSched, UseIn.leaves (· = [97]) 3 x.2 := by
  intro x hx
  simp only [useSched, regs, List.mem_append, List.mem_cons, List.mem_replicate, List.not_mem_nil, or_false] at hx
  rcases x with ⟨t, i⟩
  cases i with
  | other o =>
    simp at hx
    rw [hx.2]
    exact ⟨by decide, by decide⟩
  | _ => trivial

/-! The names must not be unregistered: goroutine 0 has got counter 0 for the name, goroutine 1 unregisters the name, goroutine 0 increments, goroutine 1 asks for the count by name and sees a new counter. -/
private def lostSched : List (Nat × UseIn CounterM) :=
  [(0, .use [97] (.inc 5))] ++ regs 0 6 ++ [(0, .reg (.returns 0))] ++ regs 0 1 ++ [(0, .step), (1, .other (.unregister [97]))] ++ regs 1 4 ++
    [(1, .step), (0, .step), (0, .step), (1, .use [97] .count)] ++ regs 1 6 ++ [(1, .reg (.returns 1))] ++ regs 1 1 ++ [(1, .step), (1, .step), (1, .step)]
private def lostEnd : Option (List (Str × Nat) × List ((Str × CounterM) × AtomRes)) :=
  ((useMachine raceKinds ⟨0⟩ counterDo).run ⟨.init [], fun _ => ⟨0⟩, 0⟩ (fun _ => .idle) lostSched).map fun x => (x.1.reg.metrics, linSeq (namedUses x.2.2))
example : lostEnd = some ([([97], 1)], [(([97], .inc 5), .unit), (([97], .count), .int 0)]) := rfl

end GoMetrics
