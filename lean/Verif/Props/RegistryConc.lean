import Verif.Lemmas.RegistryConc

/-! Property theorems C50, C51, and the concurrent part of C52: one registry used by any number of goroutines. -/

set_option linter.unusedSimpArgs false
set_option linter.unnecessarySeqFocus false
set_option linter.unusedSectionVars false

namespace GoMetrics
open Spec

variable {V : Type}

/-! ### C50 -/

/-- C50: every execution of any number of goroutines calling the methods of one registry is linearizable: it looks as if each call had happened
at one moment between its invocation and its return. (User functions called on the way may take any time, panic, and call the registry themselves.) -/
theorem C50_linearizable (K : Kinds V) (m0 : List (Str × V)) (h0 : (m0.map Prod.fst).Nodup) (sched : List (Nat × RIn V)) (s : RegS V)
    (ls : Nat → Frame V) (tr : List (REv V)) (h : (regMachine K).run (.init m0) (fun _ => .idle) sched = some (s, ls, tr)) :
    Linearizable (RegCall K) (find m0) (hist (calls tr)) := by
  obtain ⟨m, hr, -⟩ := (reg_inv h0 h).run
  exact ⟨calls tr, _, m, rfl, reg_wf h, hr⟩

/-- C50: when all calls have returned, the registry holds what the calls, one after the other in that order, leave behind. -/
theorem C50_final (K : Kinds V) (m0 : List (Str × V)) (h0 : (m0.map Prod.fst).Nodup) (sched : List (Nat × RIn V)) (s : RegS V)
    (ls : Nat → Frame V) (tr : List (REv V)) (h : (regMachine K).run (.init m0) (fun _ => .idle) sched = some (s, ls, tr))
    (hidle : ∀ t, ls t = .idle) :
    Wf allIdle (calls tr) allIdle ∧ LegalRun (RegCall K) (find m0) (linSeq (calls tr)) (find s.metrics) := by
  obtain ⟨m, hr, h1, -⟩ := (reg_inv h0 h).run
  refine ⟨?_, ?_⟩
  · have := reg_wf h
    rwa [show (fun t => (ls t).abs) = allIdle by funext t; rw [hidle t]; rfl] at this
  · rw [h1 fun t => by rw [hidle t]; exact id] at hr
    exact hr

-- Goroutine 0 registers 5 (a stoppable metric) under "a"; goroutine 1 calls `Get("a")` while `Register` waits for the lock, then goroutine 0
-- gets it, and goroutine 1's `UnregisterAll` stops it.
private def allMetrics : Kinds Nat := ⟨fun _ => true, fun _ => true, fun _ => false⟩
private def raceSched : List (Nat × RIn Nat) :=
  [(1, .call (.get [97])), (0, .call (.register [97] 5)), (1, .step), (0, .step), (1, .step), (1, .step), (0, .step), (0, .step), (1, .step), (0, .step), (0, .step),
   (1, .call .unregisterAll), (1, .step), (1, .step), (1, .order id fun _ => .refl _), (1, .step), (1, .step), (1, .step), (1, .step)]
private def raceTrace : List (REv Nat) :=
  [.call (.inv 1 (.get [97])), .call (.inv 0 (.register [97] 5)), .call (.lin 1 (.get [97]) (.value none)), .call (.lin 0 (.register [97] 5) (.dup false)),
   .call (.ret 1 (.get [97]) (.value none)), .call (.ret 0 (.register [97] 5) (.dup false)), .call (.inv 1 .unregisterAll),
   .call (.lin 1 .unregisterAll (.stopped [([97], 5)])), .call (.ret 1 .unregisterAll (.stopped [([97], 5)]))]
example : ((regMachine allMetrics).run (.init []) (fun _ => .idle) raceSched).map (fun x => (x.1, x.2.2)) = some (.init [], raceTrace) := rfl

/-! ### C52, concurrent part -/

/-- C52: a call of `Each` passes to its callback exactly the list it took from the registry at its effect point (by C50 every binding of that moment, once),
in that order, whatever other goroutines or the callback itself do to the registry meanwhile. For every goroutine the callbacks so far and those still to come
are the lists of its `Each` calls, if no callback panics. -/
theorem C52_concurrent (K : Kinds V) (m0 : List (Str × V)) (sched : List (Nat × RIn V)) (s : RegS V)
    (ls : Nat → Frame V) (tr : List (REv V)) (h : (regMachine K).run (.init m0) (fun _ => .idle) sched = some (s, ls, tr))
    (hp : ∀ x ∈ sched, x.2 ≠ .panics) (t : Nat) (hidle : ls t = .idle) : visitsOf t tr = (eachLists t tr).flatten := by
  have := visits_inv hp h t
  rw [hidle] at this
  simpa [Frame.todo] using this

-- While goroutine 0's callback runs for "a" (two entries), goroutine 1 unregisters everything; "b" is visited all the same.
private def eachSched : List (Nat × RIn Nat) :=
  [(0, .call .each), (0, .step), (0, .order id fun _ => .refl _), (0, .step), (0, .step), (1, .call .unregisterAll), (1, .step), (1, .step), (1, .order id fun _ => .refl _),
   (1, .step), (1, .step), (1, .step), (1, .step), (1, .step), (0, .step), (0, .step), (0, .step), (0, .step), (0, .step)]
example : ((regMachine allMetrics).run (.init [([97], 1), ([98], 2)]) (fun _ => .idle) eachSched).map (fun x => (x.1.metrics, visitsOf 0 x.2.2, eachLists 0 x.2.2)) =
    some ([], [([97], 1), ([98], 2)], [[([97], 1), ([98], 2)]]) := rfl

/-! ### C51 -/

section
variable (K : Kinds V) (m0 : List (Str × V)) (h0 : (m0.map Prod.fst).Nodup) (name : Str) (hfree : find m0 name = none)
  (sched : List (Nat × RIn V)) (s : RegS V) (ls : Nat → Frame V) (tr : List (REv V))
  (h : (regMachine K).run (.init m0) (fun _ => .idle) sched = some (s, ls, tr))
  (hc : Calm K name tr)
include h0 hfree h hc

/-- C51: all calls of `GetOrRegister` for one name that is free at the start return the same metric. -/
theorem C51_agree {t t' : Nat} {a a' : Arg V} {r r' : RRes V} (h1 : .ret t (.getOrRegister name a) r ∈ calls tr)
    (h2 : .ret t' (.getOrRegister name a') r' ∈ calls tr) : r = r' ∧ ∃ v, r = .value (some v) := by
  have hn := name_inv h0 hfree h hc
  have hR := reg_inv h0 h
  have hwf := reg_wf h
  have key : ∀ {t a r}, .ret t (.getOrRegister name a) r ∈ calls tr → ∃ v, r = .value (some v) ∧ find s.metrics name = some v := by
    intro t a r hr
    have hl := hwf.ret_lin hr
    have hgo : ∀ v, r = .value v → ∃ v, r = .value (some v) ∧ find s.metrics name = some v := by
      rintro (_ | v) rfl
      · exact absurd hl (hn.get t a)
      · exact ⟨v, rfl, hn.agree t a v hl⟩
    -- a call has a result of the right kind
    obtain ⟨m, hrun, -⟩ := hR.run
    have hm : (ROp.getOrRegister name a, r) ∈ linSeq (calls tr) := List.mem_filterMap.2 ⟨_, hl, rfl⟩
    have hshape : (∃ v, r = .value v) ∨ r = .panic := by
      obtain ⟨x, y, e⟩ := List.append_of_mem hm
      rw [e] at hrun
      obtain ⟨m1, -, h4⟩ := hrun.split
      cases h4 with
      | cons h5 _ => cases h5 <;> first | exact .inl ⟨_, rfl⟩ | exact .inr rfl
    rcases hshape with ⟨v, e⟩ | rfl
    · exact hgo v e
    · exact absurd hl (hc.noPanic t a)
  obtain ⟨v, rfl, e1⟩ := key h1
  obtain ⟨v', rfl, e2⟩ := key h2
  rw [e1] at e2
  simp only [Option.some.injEq] at e2
  subst e2
  exact ⟨rfl, v, rfl⟩

/-- C51: at most one constructor is called for the name. -/
theorem C51_one_constructor : ctorCalls name tr ≤ 1 := (name_inv h0 hfree h hc).le

/-- C51: exactly one, as soon as a call has returned, if all calls pass a constructor and nobody registers the name otherwise. -/
theorem C51_constructed (hlazy : ∀ t v, .inv t (.getOrRegister name (.val v)) ∉ calls tr) (hreg : ∀ t v, .inv t (.register name v) ∉ calls tr)
    {t : Nat} {a : Arg V} {r : RRes V} (h1 : .ret t (.getOrRegister name a) r ∈ calls tr) : ctorCalls name tr = 1 := by
  have hn := name_inv h0 hfree h hc
  obtain ⟨-, v, rfl⟩ := C51_agree K m0 h0 name hfree sched s ls tr h hc h1 h1
  have := hn.agree t a v ((reg_wf h).ret_lin h1)
  have := hn.made hreg hlazy (by simp [this])
  have := hn.le
  omega

end

/-- C51: and `Get` returns that metric from then on: a call of `Get` that starts after a `GetOrRegister` has returned. -/
theorem C51_get (K : Kinds V) (m0 : List (Str × V)) (h0 : (m0.map Prod.fst).Nodup) (name : Str) (hfree : find m0 name = none)
    (sched : List (Nat × RIn V)) (s : RegS V) (ls : Nat → Frame V) (x y z z' : List (REv V)) (t u : Nat) (a : Arg V) (v : V) (r : RRes V)
    (h : (regMachine K).run (.init m0) (fun _ => .idle) sched = some (s, ls,
      x ++ .call (.ret t (.getOrRegister name a) (.value (some v))) :: (y ++ .call (.inv u (.get name)) :: (z ++ .call (.ret u (.get name) r) :: z'))))
    (hz : ∀ o r, .ret u o r ∉ calls z)
    (hc : Calm K name (x ++ .call (.ret t (.getOrRegister name a) (.value (some v))) :: (y ++ .call (.inv u (.get name)) :: (z ++ .call (.ret u (.get name) r) :: z')))) :
    r = .value (some v) := by
  set tr := x ++ .call (.ret t (.getOrRegister name a) (.value (some v))) :: (y ++ .call (.inv u (.get name)) :: (z ++ .call (.ret u (.get name) r) :: z')) with htr
  have hwf := reg_wf h
  -- the effect of the `Get` lies in `z`
  have hlin : .call (.lin u (.get name) r) ∈ z := by
    have e : calls tr = (calls (x ++ .call (.ret t (.getOrRegister name a) (.value (some v))) :: y) ++ [.inv u (.get name)]) ++
        (calls z ++ .ret u (.get name) r :: calls z') := by
      rw [htr]
      simp only [calls, List.filterMap_append, List.filterMap_cons, List.append_assoc, List.cons_append, List.nil_append]
    rw [e] at hwf
    obtain ⟨st1, hw1, hw2⟩ := hwf.split
    obtain ⟨st2, hw3, hw4⟩ := hw2.split
    obtain ⟨st0, -, hs⟩ := hw1.snoc_inv
    have hp : st1 u = .pend (.get name) := by cases hs; simp
    cases hw4 with
    | cons hs' _ =>
      obtain ⟨-, b1, b2, e⟩ := Wf.lin_between hp hw3 hs' hz
      have : CEv.lin u (.get name) r ∈ calls z := by rw [e]; simp
      obtain ⟨ev, h1, h2⟩ := List.mem_filterMap.1 this
      cases ev <;> simp at h2
      subst h2
      exact h1
  obtain ⟨z1, z2, rfl⟩ := List.append_of_mem hlin
  -- cut the execution there
  obtain ⟨s1, ls1, tr1, sched1, t1, i1, s2, l2, es1, es2, hrun, hst, hpre⟩ := (regMachine K).cut h
    (a := x ++ .call (.ret t (.getOrRegister name a) (.value (some v))) :: (y ++ .call (.inv u (.get name)) :: z1)) (b := z2 ++ .call (.ret u (.get name) r) :: z')
    (e := .call (.lin u (.get name) r)) (by rw [htr]; simp)
  have hrel := regStep_rel hst
  have hget : es1 = [] ∧ r = .value (find s1.metrics name) := by
    generalize ls1 t1 = l at hrel
    generalize he : es1 ++ REv.call (CEv.lin u (ROp.get name) r) :: es2 = es at hrel
    have one : ∀ e, es1 ++ REv.call (CEv.lin u (ROp.get name) r) :: es2 = [e] → es1 = [] ∧ e = .call (.lin u (.get name) r) := by
      intro e h
      cases es1 with
      | nil => simp at h; exact ⟨rfl, h.1.symm⟩
      | cons a b => simp at h
    cases hrel
    case get n =>
      obtain ⟨e1, e2⟩ := one _ he
      simp only [REv.call.injEq, CEv.lin.injEq, ROp.get.injEq] at e2
      obtain ⟨-, rfl, rfl⟩ := e2
      exact ⟨e1, rfl⟩
    all_goals first
      | (have e2 := (one _ he).2; simp at e2; done)
      | (simp at he; done)
  obtain ⟨rfl, rfl⟩ := hget
  rw [List.append_nil] at hpre
  have hc1 : Calm K name tr1 := by
    rw [← hpre]
    refine Calm.left (b := .call (.lin u (.get name) (.value (find s1.metrics name))) :: (z2 ++ .call (.ret u (.get name) (.value (find s1.metrics name))) :: z')) ?_
    have : tr = (x ++ .call (.ret t (.getOrRegister name a) (.value (some v))) :: (y ++ .call (.inv u (.get name)) :: z1)) ++
        .call (.lin u (.get name) (.value (find s1.metrics name))) :: (z2 ++ .call (.ret u (.get name) (.value (find s1.metrics name))) :: z') := by rw [htr]; simp
    rw [← this]
    exact hc
  have hn := name_inv h0 hfree hrun hc1
  have : find s1.metrics name = some v := by
    refine hn.agree t a v ((reg_wf hrun).ret_lin ?_)
    rw [← hpre]
    exact List.mem_filterMap.2 ⟨.call (.ret t (.getOrRegister name a) (.value (some v))), by simp, rfl⟩
  rw [this]

-- Goroutines 0 and 1 both miss the first lookup; 0 gets the lock and constructs 7; 1 finds it under the lock; then 1 calls `Get`.
private def twoSched : List (Nat × RIn Nat) :=
  [(0, .call (.getOrRegister [97] .fn)), (1, .call (.getOrRegister [97] .fn)), (0, .step), (1, .step), (0, .step), (1, .step), (0, .step), (1, .step),
   (0, .step), (0, .step), (0, .step), (0, .returns 7), (0, .step), (0, .step), (1, .step), (1, .step), (1, .step), (1, .step), (1, .step),
   (1, .call (.get [97])), (1, .step), (1, .step), (1, .step), (1, .step)]
private def twoTrace : List (REv Nat) :=
  [.call (.inv 0 (.getOrRegister [97] .fn)), .call (.inv 1 (.getOrRegister [97] .fn)), .ctor 0 [97], .call (.lin 0 (.getOrRegister [97] .fn) (.value (some 7))),
   .call (.ret 0 (.getOrRegister [97] .fn) (.value (some 7))), .call (.lin 1 (.getOrRegister [97] .fn) (.value (some 7))),
   .call (.ret 1 (.getOrRegister [97] .fn) (.value (some 7))), .call (.inv 1 (.get [97])), .call (.lin 1 (.get [97]) (.value (some 7))), .call (.ret 1 (.get [97]) (.value (some 7)))]
example : ((regMachine allMetrics).run (.init []) (fun _ => .idle) twoSched).map (fun x => (x.1, x.2.2)) = some (.init [([97], 7)], twoTrace) := rfl
example : Calm allMetrics [97] twoTrace := by
  refine ⟨fun t o h => ?_, fun _ _ _ _ => rfl, fun t a h => ?_⟩
  · simp [calls, twoTrace] at h
    rcases h with ⟨-, rfl⟩ | ⟨-, rfl⟩ | ⟨-, rfl⟩ <;> exact id
  · simp [calls, twoTrace] at h

end GoMetrics
