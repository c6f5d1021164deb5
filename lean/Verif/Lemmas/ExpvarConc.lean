import Verif.Spec.ExpvarConc
import Verif.Lemmas.Machine

/-! Invariants of concurrent expvar requests. -/

set_option linter.unusedSimpArgs false

namespace GoMetrics
open Spec

variable {V : Type}

/-- The transitions. -/
inductive XStep (zero : V) (t : Nat) (s : ExpS V) : XIn V → XFrame V → ExpS V → XFrame V → List (XEv V) → Prop where
  | request {h jobs} : XStep zero t s (.request h jobs) .idle s (.next h jobs jobs) [.call t h jobs]
  | foreign {n k v} : s.vars n = none → XStep zero t s (.publish n k v) .idle { s with vars := Function.update s.vars n (some (k, v)) } .idle [.foreign t n v]
  | ret {h all} : XStep zero t s .step (.next h all []) s .idle [.ret t h all]
  | lock {h all j todo} : s.mutex h = none → XStep zero t s .step (.next h all (j :: todo)) { s with mutex := Function.update s.mutex h (some t) } (.get h all j todo) []
  | get0 {h all j todo} : s.vars j.name = none → XStep zero t s .step (.get h all j todo) s (.publish h all j todo) []
  | get1 {h all j todo x} : s.vars j.name = some x → x.1 = j.kind → XStep zero t s .step (.get h all j todo) s (.unlock h all j todo) []
  | get2 {h all j todo x} : s.vars j.name = some x → x.1 ≠ j.kind → XStep zero t s .step (.get h all j todo) s (.dead h) [.panic t h]
  | publish0 {h all j todo} : s.vars j.name = none →
      XStep zero t s .step (.publish h all j todo) { s with vars := Function.update s.vars j.name (some (j.kind, zero)) } (.unlock h all j todo) []
  | publish1 {h all j todo x} : s.vars j.name = some x → XStep zero t s .step (.publish h all j todo) s (.dead h) [.panic t h]
  | unlock {h all j todo} : XStep zero t s .step (.unlock h all j todo) { s with mutex := Function.update s.mutex h none } (.set h all j todo) []
  | set {h all j todo} : XStep zero t s .step (.set h all j todo) { s with vars := Function.update s.vars j.name (some (j.kind, j.value)) } (.next h all todo) [.set t j.name j.value]

theorem expvarStep_rel {zero : V} {t : Nat} {i : XIn V} {s s' : ExpS V} {l l' : XFrame V} {es : List (XEv V)}
    (h : expvarStep zero t i s l = some (s', l', es)) : XStep zero t s i l s' l' es := by
  unfold expvarStep at h
  split at h
  all_goals try split at h
  all_goals try split at h
  all_goals try simp only [Option.some.injEq, Prod.mk.injEq, reduceCtorEq] at h
  all_goals try obtain ⟨rfl, rfl, rfl⟩ := h
  · exact .request
  · exact .foreign ‹_›
  · exact .ret
  · exact .lock ‹_›
  · exact .get0 ‹_›
  · exact .get1 ‹_› ‹_›
  · exact .get2 ‹_› ‹_›
  · exact .publish0 ‹_›
  · exact .publish1 ‹_›
  · exact .unlock
  · exact .set

/-- The handler whose mutex a goroutine holds. -/
def XFrame.holds : XFrame V → Option Nat
  | .get h _ _ _ | .publish h _ _ _ | .unlock h _ _ _ | .dead h => some h
  | _ => none

/-- Who holds what. -/
def MutexInv (s : ExpS V) (ls : Nat → XFrame V) : Prop := ∀ t h, (ls t).holds = some h ↔ s.mutex h = some t

theorem MutexInv.step {zero : V} {t : Nat} {i : XIn V} {s s' : ExpS V} {ls : Nat → XFrame V} {l' : XFrame V} {es : List (XEv V)} (hi : MutexInv s ls)
    (h : XStep zero t s i (ls t) s' l' es) : MutexInv s' (Function.update ls t l') := by
  intro u k
  have h1 := hi t
  have h2 := hi u k
  generalize hl : ls t = l at h h1
  cases h <;> simp only [Function.update_apply, XFrame.holds] at * <;> grind [XFrame.holds]

theorem mutex_inv {zero : V} {vars sched s ls tr} (h : (expvarMachine zero).run (.init vars) (fun _ => .idle) sched = some (s, ls, tr)) : MutexInv s ls := by
  refine (expvarMachine zero).induct (fun s ls _ => MutexInv s ls) ?_ ?_ sched s ls tr h
  · intro t h; simp [XFrame.holds, ExpS.init]
  · intro s ls tr t i s' l' es hi hst
    exact hi.step (expvarStep_rel hst)

/-- The statements a goroutine has still to execute, with the handler. -/
def XFrame.jobs : XFrame V → Option (Nat × List (ExpJob V))
  | .next h _ l => some (h, l)
  | .get h _ j l | .publish h _ j l | .unlock h _ j l | .set h _ j l => some (h, j :: l)
  | _ => none

/-- What holds for disciplined programs. -/
structure DiscInv (own : Str → Option (Nat × VarKind)) (s : ExpS V) (ls : Nat → XFrame V) (tr : List (XEv V)) : Prop where
  mutex : MutexInv s ls
  jobs : ∀ t h l, (ls t).jobs = some (h, l) → ∀ j ∈ l, own j.name = some (h, j.kind)
  kinds : KindsFit own s.vars
  publish : ∀ t h all j todo, ls t = .publish h all j todo → s.vars j.name = none
  unlock : ∀ t h all j todo, ls t = .unlock h all j todo → (s.vars j.name).isSome
  set : ∀ t h all j todo, ls t = .set h all j todo → (s.vars j.name).isSome
  dead : ∀ t h, ls t ≠ .dead h
  panic : ∀ t h, .panic t h ∉ tr

theorem DiscInv.step {own : Str → Option (Nat × VarKind)} {zero : V} {t : Nat} {i : XIn V} {s s' : ExpS V} {ls : Nat → XFrame V} {l' : XFrame V} {tr es : List (XEv V)}
    (hi : DiscInv own s ls tr) (hd : Disciplined own i) (h : XStep zero t s i (ls t) s' l' es) : DiscInv own s' (Function.update ls t l') (tr ++ es) := by
  have hm := hi.mutex.step h
  have h0 := hi.mutex
  obtain ⟨-, hj, hk, hp, hu, hs, hdd, hpa⟩ := hi
  have hjt := hj t
  have hut := hu t
  have hst := hs t
  have hpt := hp t
  have h0t := h0 t
  generalize hl : ls t = l at h hjt hut hst hpt h0t
  cases h
  case request h jobs =>
    refine ⟨hm, ?_, hk, ?_, ?_, ?_, ?_, ?_⟩ <;> simp only [Function.update_apply, Disciplined] at * <;> grind [XFrame.jobs]
  case foreign n k v hn =>
    have hex : ∀ u h' all' j' todo', ls u = .publish h' all' j' todo' → own j'.name = some (h', j'.kind) := fun u h' all' j' todo' e => hj u h' (j' :: todo') (by rw [e]; rfl) j' (by simp)
    refine ⟨hm, ?_, ?_, ?_, ?_, ?_, ?_, ?_⟩ <;> simp only [Function.update_apply, Disciplined, KindsFit] at * <;> grind [XFrame.jobs]
  case ret => refine ⟨hm, ?_, hk, ?_, ?_, ?_, ?_, ?_⟩ <;> (try simp only [Function.update_apply] at *) <;> grind [XFrame.jobs]
  case lock => refine ⟨hm, ?_, hk, ?_, ?_, ?_, ?_, ?_⟩ <;> (try simp only [Function.update_apply] at *) <;> grind [XFrame.jobs]
  case get0 => refine ⟨hm, ?_, hk, ?_, ?_, ?_, ?_, ?_⟩ <;> (try simp only [Function.update_apply] at *) <;> grind [XFrame.jobs]
  case get1 => refine ⟨hm, ?_, hk, ?_, ?_, ?_, ?_, ?_⟩ <;> (try simp only [Function.update_apply] at *) <;> grind [XFrame.jobs]
  case get2 hx hne => exact absurd (hk _ _ _ _ (hjt _ _ rfl _ (by simp)) hx) hne
  case publish0 h all j todo hn =>
    have hown := hjt _ _ rfl j (by simp)
    have hex : ∀ u h' all' j' todo', u ≠ t → ls u = .publish h' all' j' todo' → j'.name ≠ j.name := by
      intro u h' all' j' todo' hut e hn'
      have h1 := hj u h' (j' :: todo') (by rw [e]; rfl) j' (by simp)
      rw [hn', hown] at h1
      simp only [Option.some.injEq, Prod.mk.injEq] at h1
      have h2 := (h0 u h').1 (by rw [e]; rfl)
      have h3 := (h0t h).1 rfl
      rw [← h1.1, h3] at h2
      exact hut (Option.some.inj h2).symm
    refine ⟨hm, ?_, ?_, ?_, ?_, ?_, ?_, ?_⟩ <;> simp only [Function.update_apply, KindsFit] at * <;> grind [XFrame.jobs]
  case publish1 h all j todo x hx => exact absurd (hpt _ _ _ _ rfl) (by simp [hx])
  case unlock => refine ⟨hm, ?_, hk, ?_, ?_, ?_, ?_, ?_⟩ <;> (try simp only [Function.update_apply] at *) <;> grind [XFrame.jobs]
  case set h all j todo =>
    have hown := hjt _ _ rfl j (by simp)
    have hsome := hst _ _ _ _ rfl
    refine ⟨hm, ?_, ?_, ?_, ?_, ?_, ?_, ?_⟩ <;> simp only [Function.update_apply, KindsFit] at * <;> grind [XFrame.jobs]

theorem disc_inv {own : Str → Option (Nat × VarKind)} {zero : V} {vars sched s ls tr} (h0 : KindsFit own vars) (hd : ∀ x ∈ sched, Disciplined own x.2)
    (h : (expvarMachine zero).run (.init vars) (fun _ => .idle) sched = some (s, ls, tr)) : DiscInv own s ls tr := by
  refine (expvarMachine zero).induct_on (Disciplined own) (DiscInv own) ?_ ?_ sched s ls tr hd h
  · refine ⟨fun t h => by simp [XFrame.holds, ExpS.init], ?_, h0, ?_, ?_, ?_, ?_, ?_⟩ <;> simp [XFrame.jobs]
  · intro s ls tr t i s' l' es hp hi hst
    exact hi.step hp (expvarStep_rel hst)

/-- In a disciplined program somebody can go on, unless all are idle. -/
theorem DiscInv.progress {own : Str → Option (Nat × VarKind)} {zero : V} {s : ExpS V} {ls : Nat → XFrame V} {tr : List (XEv V)} (hi : DiscInv own s ls tr) {t : Nat} (ht : ls t ≠ .idle) :
    ∃ u x, ls u ≠ .idle ∧ expvarStep zero u .step s (ls u) = some x := by
  have run : ∀ u h, (ls u).holds = some h → ∃ x, expvarStep zero u .step s (ls u) = some x := by
    intro u h hu
    have hd := hi.dead u
    generalize ls u = l at *
    cases l with
    | get h all j todo =>
      cases hx : s.vars j.name with
      | none => exact ⟨_, by simp only [expvarStep, hx]; rfl⟩
      | some x => by_cases hk : x.1 = j.kind <;> simp [expvarStep, hx, hk]
    | publish h all j todo => cases hx : s.vars j.name <;> simp [expvarStep, hx]
    | unlock h all j todo => simp [expvarStep]
    | dead h => exact absurd rfl (hd h)
    | _ => simp [XFrame.holds] at hu
  cases hl : ls t with
  | idle => exact absurd hl ht
  | next h all todo =>
    cases todo with
    | nil => exact ⟨t, _, ht, by rw [hl]; rfl⟩
    | cons j todo =>
      cases hm : s.mutex h with
      | none => exact ⟨t, _, ht, by rw [hl]; simp only [expvarStep, hm, if_true]; rfl⟩
      | some u =>
        have hu := (hi.mutex u h).2 hm
        obtain ⟨x, hx⟩ := run u h hu
        exact ⟨u, x, fun e => by simp [e, XFrame.holds] at hu, hx⟩
  | get h all j todo => obtain ⟨x, hx⟩ := run t h (by rw [hl]; rfl); exact ⟨t, x, ht, hx⟩
  | publish h all j todo => obtain ⟨x, hx⟩ := run t h (by rw [hl]; rfl); exact ⟨t, x, ht, hx⟩
  | unlock h all j todo => obtain ⟨x, hx⟩ := run t h (by rw [hl]; rfl); exact ⟨t, x, ht, hx⟩
  | set h all j todo => exact ⟨t, _, ht, by rw [hl]; rfl⟩
  | dead h => exact absurd hl (hi.dead t h)

/-- The steps a goroutine has still to take, at most. -/
def XFrame.work : XFrame V → Nat
  | .idle | .dead _ => 0
  | .next _ _ l => 5 * l.length + 1
  | .get _ _ _ l => 5 * l.length + 5
  | .publish _ _ _ l => 5 * l.length + 4
  | .unlock _ _ _ l => 5 * l.length + 3
  | .set _ _ _ l => 5 * l.length + 2

theorem XStep.work {zero : V} {t : Nat} {i : XIn V} {s s' : ExpS V} {l l' : XFrame V} {es : List (XEv V)} (h : XStep zero t s i l s' l' es) :
    l'.work + (match i with | .step => 1 | _ => 0) ≤ l.work + allowed i := by
  cases h <;> (simp [XFrame.work, allowed]; try omega)

theorem steps_bound {zero : V} (t : Nat) : ∀ (sched : List (Nat × XIn V)) (s : ExpS V) (ls : Nat → XFrame V) {s' ls' tr}, (expvarMachine zero).run s ls sched = some (s', ls', tr) →
    (ls' t).work + stepsOf t sched ≤ (ls t).work + allowedFor t sched := by
  intro sched
  induction sched with
  | nil =>
    intro s ls s' ls' tr h
    simp [Machine.run] at h
    obtain ⟨rfl, rfl, rfl⟩ := h
    simp [stepsOf, allowedFor]
  | cons p sched ih =>
    obtain ⟨u, i⟩ := p
    intro s ls s' ls' tr h
    obtain ⟨s1, l1, es, tr2, hst, hr, -⟩ := (expvarMachine zero).run_cons h
    have h1 := ih _ _ hr
    have h2 := (expvarStep_rel hst).work
    by_cases hu : u = t
    · subst hu
      simp only [Function.update_self] at h1
      simp only [stepsOf, allowedFor, List.countP_cons, List.filter_cons, decide_true, if_true, List.map_cons, List.sum_cons, true_and] at h1 ⊢
      cases i <;> simp at h2 ⊢ <;> omega
    · rw [Function.update_of_ne (Ne.symm hu)] at h1
      simpa [stepsOf, allowedFor, hu] using h1

/-- The value of a variable is the last one stored. -/
theorem stored_inv {zero : V} {vars sched s ls tr} (h : (expvarMachine zero).run (.init vars) (fun _ => .idle) sched = some (s, ls, tr)) :
    ∀ n v, (storedAt n tr).getLast? = some v → ∃ k, s.vars n = some (k, v) := by
  refine (expvarMachine zero).induct (fun s _ tr => ∀ n v, (storedAt n tr).getLast? = some v → ∃ k, s.vars n = some (k, v)) (by simp [storedAt]) ?_ sched s ls tr h
  intro s ls tr t i s' l' es hi hst n v
  replace hst := expvarStep_rel hst
  have happ : storedAt n (tr ++ es) = storedAt n tr ++ storedAt n es := by simp [storedAt]
  rw [happ]
  generalize ls t = l at hst
  cases hst
  case foreign m k x hm =>
    by_cases e : m = n
    · subst e; simp [storedAt]
    · simp only [storedAt, List.filterMap_cons, if_neg e, List.filterMap_nil, List.append_nil]
      intro hv
      obtain ⟨k, hk⟩ := hi n v hv
      exact ⟨k, by simp only [Function.update_apply, if_neg (Ne.symm e)]; exact hk⟩
  case publish0 h all j todo hn =>
    simp only [storedAt, List.filterMap_nil, List.append_nil]
    intro hv
    obtain ⟨k, hk⟩ := hi n v hv
    have e : n ≠ j.name := by rintro rfl; simp [hn] at hk
    exact ⟨k, by simp only [Function.update_apply, if_neg e]; exact hk⟩
  case set h all j todo =>
    by_cases e : j.name = n
    · subst e; simp [storedAt]
    · simp only [storedAt, List.filterMap_cons, if_neg e, List.filterMap_nil, List.append_nil]
      intro hv
      obtain ⟨k, hk⟩ := hi n v hv
      exact ⟨k, by simp only [Function.update_apply, if_neg (Ne.symm e)]; exact hk⟩
  all_goals simpa [storedAt] using hi n v

/-- The request of a goroutine: handler, all statements, those not executed. -/
def XFrame.request : XFrame V → Option (Nat × List (ExpJob V) × List (ExpJob V))
  | .next h all l => some (h, all, l)
  | .get h all j l | .publish h all j l | .unlock h all j l | .set h all j l => some (h, all, j :: l)
  | _ => none

theorem setBy_append (t : Nat) (a b : List (XEv V)) : setBy t (a ++ b) = setBy t a ++ setBy t b := by simp [setBy]

/-- What a goroutine has set since the beginning of its request. -/
theorem request_inv {zero : V} {vars sched s ls tr} (h : (expvarMachine zero).run (.init vars) (fun _ => .idle) sched = some (s, ls, tr)) :
    ∀ t h all l, (ls t).request = some (h, all, l) → ∃ a b done, tr = a ++ .call t h all :: b ∧ all = done ++ l ∧ setBy t b = done.map (fun j => (j.name, j.value)) ∧
      ∀ e ∈ b, byGoroutine e = t → ∃ n v, e = .set t n v := by
  refine (expvarMachine zero).induct (fun _ ls tr => ∀ t h all l, (ls t).request = some (h, all, l) → ∃ a b done, tr = a ++ .call t h all :: b ∧ all = done ++ l ∧
    setBy t b = done.map (fun j => (j.name, j.value)) ∧ ∀ e ∈ b, byGoroutine e = t → ∃ n v, e = .set t n v) (by simp [XFrame.request]) ?_ sched s ls tr h
  intro s ls tr t i s' l' es hi hst u h all l hl
  replace hst := expvarStep_rel hst
  by_cases hu : u = t
  · subst hu
    simp only [Function.update_self] at hl
    have hiu := hi u
    generalize ls u = f at hst hiu
    cases hst
    case request h' jobs =>
      simp only [XFrame.request, Option.some.injEq, Prod.mk.injEq] at hl
      obtain ⟨rfl, rfl, rfl⟩ := hl
      exact ⟨tr, [], [], by simp, by simp, by simp [setBy], by simp⟩
    case set h' all' j todo =>
      simp only [XFrame.request, Option.some.injEq, Prod.mk.injEq] at hl
      obtain ⟨rfl, rfl, rfl⟩ := hl
      obtain ⟨a, b, done, h1, h2, h3, h4⟩ := hiu _ _ _ rfl
      refine ⟨a, b ++ [.set u j.name j.value], done ++ [j], by simp [h1], by simp [h2], by rw [setBy_append, h3]; simp [setBy], ?_⟩
      intro e he hb
      rcases List.mem_append.1 he with he | he
      · exact h4 e he hb
      · simp at he; exact ⟨_, _, he⟩
    all_goals simp only [XFrame.request, Option.some.injEq, Prod.mk.injEq, reduceCtorEq] at hl
    all_goals
      obtain ⟨rfl, rfl, rfl⟩ := hl
      simpa using hiu _ _ _ rfl
  · rw [Function.update_of_ne hu] at hl
    obtain ⟨a, b, done, h1, h2, h3, h4⟩ := hi u h all l hl
    have hes : (∀ e ∈ es, byGoroutine e = t) ∧ setBy u es = [] := by
      generalize ls t = f at hst
      cases hst <;> simp [byGoroutine, setBy, Ne.symm hu]
    refine ⟨a, b ++ es, done, by simp [h1], h2, by rw [setBy_append, h3, hes.2]; simp, ?_⟩
    intro e he hb
    rcases List.mem_append.1 he with he | he
    · exact h4 e he hb
    · exact absurd (hes.1 e he ▸ hb).symm hu

/-- What a goroutine had done when it returned. -/
theorem ret_cut {zero : V} {vars sched s ls tr} (h : (expvarMachine zero).run (.init vars) (fun _ => .idle) sched = some (s, ls, tr)) {a b : List (XEv V)} {t k : Nat} {jobs : List (ExpJob V)}
    (he : tr = a ++ .ret t k jobs :: b) :
    ∃ a₁ a₂, a = a₁ ++ .call t k jobs :: a₂ ∧ setBy t a₂ = jobs.map (fun j => (j.name, j.value)) ∧ ∀ e ∈ a₂, byGoroutine e = t → ∃ n v, e = .set t n v := by
  have key := (expvarMachine zero).induct_reach (s0 := .init vars) (l0 := fun _ => .idle) (fun _ _ tr => ∀ a b t k jobs, tr = a ++ .ret t k jobs :: b →
    ∃ a₁ a₂, a = a₁ ++ .call t k jobs :: a₂ ∧ setBy t a₂ = jobs.map (fun j => (j.name, j.value)) ∧ ∀ e ∈ a₂, byGoroutine e = t → ∃ n v, e = .set t n v) (by simp) ?_ sched s ls tr h
  · exact key a b t k jobs he
  intro s ls tr t i s' l' es ⟨sched, hr⟩ hi hst a b u k jobs he
  have hq := request_inv hr t
  replace hst := expvarStep_rel hst
  have hes : es = [] ∨ ∃ e, es = [e] := by
    generalize ls t = f at hst
    cases hst <;> simp
  rcases hes with rfl | ⟨e, rfl⟩
  · exact hi a b u k jobs (by simpa using he)
  · rcases List.eq_nil_or_concat b with rfl | ⟨b', x, rfl⟩
    · obtain ⟨h1, h2⟩ := List.append_inj' he rfl
      simp only [List.cons.injEq, and_true] at h2
      subst h2 h1
      generalize ls t = f at hst hq
      cases hst
      obtain ⟨a₁, a₂, done, h1, h2, h3, h4⟩ := hq _ _ _ rfl
      simp only [List.append_nil] at h2
      subst h2
      exact ⟨a₁, a₂, h1, h3, h4⟩
    · have he' : tr ++ [e] = (a ++ .ret u k jobs :: b') ++ [x] := by simp [he]
      obtain ⟨h1, -⟩ := List.append_inj' he' rfl
      exact hi a b' u k jobs h1

/-- A handler that has panicked stays locked. -/
theorem dead_inv {zero : V} {vars sched s ls tr} (h : (expvarMachine zero).run (.init vars) (fun _ => .idle) sched = some (s, ls, tr)) :
    ∀ t h, .panic t h ∈ tr → ls t = .dead h := by
  refine (expvarMachine zero).induct (fun _ ls tr => ∀ t h, .panic t h ∈ tr → ls t = .dead h) (by simp) ?_ sched s ls tr h
  intro s ls tr t i s' l' es hi hst u h hp
  replace hst := expvarStep_rel hst
  have hiu := hi u h
  have hit := hi t
  generalize hl : ls t = f at hst hit
  cases hst <;> simp only [Function.update_apply] at * <;> grind

/-- A request that begins when the handler has panicked never does anything. -/
theorem stuck_inv {zero : V} {vars sched s ls tr} (h : (expvarMachine zero).run (.init vars) (fun _ => .idle) sched = some (s, ls, tr)) :
    ∀ a t h b u j js c, tr = a ++ .panic t h :: (b ++ .call u h (j :: js) :: c) → ls u = .next h (j :: js) (j :: js) ∧ ∀ e ∈ c, byGoroutine e ≠ u := by
  refine (expvarMachine zero).induct_reach (fun _ ls tr => ∀ a t h b u j js c, tr = a ++ .panic t h :: (b ++ .call u h (j :: js) :: c) →
    ls u = .next h (j :: js) (j :: js) ∧ ∀ e ∈ c, byGoroutine e ≠ u) (by simp) ?_ sched s ls tr h
  intro s ls tr t i s' l' es ⟨sched, hr⟩ hi hst a p h b u j js c he
  have hd := dead_inv hr p h
  have hm := mutex_inv hr p h
  replace hst := expvarStep_rel hst
  -- the step emits at most one event
  have hes : es = [] ∨ ∃ e, es = [e] ∧ byGoroutine e = t := by
    generalize ls t = f at hst
    cases hst <;> simp [byGoroutine]
  have old : ∀ c', tr = a ++ .panic p h :: (b ++ .call u h (j :: js) :: c') → u ≠ t ∧ ls u = .next h (j :: js) (j :: js) ∧ ∀ e ∈ c', byGoroutine e ≠ u := by
    intro c' hc
    obtain ⟨h1, h2⟩ := hi a p h b u j js c' hc
    refine ⟨?_, h1, h2⟩
    rintro rfl
    have h3 := hm.1 (by rw [hd (by simp [hc])]; rfl)
    rw [h1] at hst
    cases hst with
    | lock hf => simp [h3] at hf
  rcases hes with rfl | ⟨e, rfl, hb⟩
  · obtain ⟨h1, h2, h3⟩ := old c (by simpa using he)
    rw [Function.update_of_ne h1]
    exact ⟨h2, h3⟩
  · rcases List.eq_nil_or_concat c with rfl | ⟨c', x, rfl⟩
    · -- the call is the new event
      have he' : tr ++ [e] = (a ++ .panic p h :: b) ++ [.call u h (j :: js)] := by simp [he]
      obtain ⟨h1, h2⟩ := List.append_inj' he' rfl
      simp only [List.cons.injEq, and_true] at h2
      subst h2
      generalize ls t = f at hst
      cases hst
      simp
    · have he' : tr ++ [e] = (a ++ .panic p h :: (b ++ .call u h (j :: js) :: c')) ++ [x] := by simp [he]
      obtain ⟨h1, h2⟩ := List.append_inj' he' rfl
      simp only [List.cons.injEq, and_true] at h2
      subst h2
      obtain ⟨h3, h4, h5⟩ := old c' h1
      rw [Function.update_of_ne h3]
      refine ⟨h4, fun y hy => ?_⟩
      simp only [List.concat_eq_append, List.mem_append, List.mem_singleton] at hy
      rcases hy with hy | rfl
      · exact h5 y hy
      · rw [hb]; exact Ne.symm h3

end GoMetrics
