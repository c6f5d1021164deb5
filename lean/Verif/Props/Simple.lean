import Verif.Model.Counter
import Verif.Model.Gauge
import Verif.Model.Healthcheck
import Verif.Spec.Basic
import Verif.Lemmas.Conc
import Mathlib.Data.List.Induction
import Mathlib.Algebra.BigOperators.Group.List.Basic

/-! Property theorems C01, C02, C06, C07, C09: counters, gauges, healthchecks. -/

set_option linter.unusedSimpArgs false
set_option linter.unnecessarySeqFocus false

namespace GoMetrics
open Spec

/-! ### C01 -/

private theorem sinceClear_concat (ops : List CounterOp) (o : CounterOp) :
    sinceClear (ops ++ [o]) = if o = .clear then [] else sinceClear ops ++ [o] := by
  unfold sinceClear
  by_cases h : o = .clear <;> simp [h, List.takeWhile_cons]

/-- C01: after any history the count of a counter made by `NewCounter` is the net sum since the last Clear, wrapped to int64,
and no call panics. -/
theorem C01_counter_net_sum (ops : List CounterOp) :
    ∃ c, (Counter.new false).run ops = .ok c ∧ c.count.toInt = wrap64 (net ops) := by
  suffices h : ∃ c : StandardCounter, (Counter.new false).run ops = .ok (.std c) ∧ c.count.toInt = wrap64 (net ops) by
    obtain ⟨c, h1, h2⟩ := h; exact ⟨_, h1, h2⟩
  induction ops using List.reverseRecOn with
  | nil => exact ⟨⟨0⟩, rfl, by decide⟩
  | append_singleton ops o ih =>
    obtain ⟨c, h1, h2⟩ := ih
    unfold Counter.run at h1 ⊢
    rw [List.foldlM_append, h1]
    cases o with
    | clear => exact ⟨⟨0⟩, rfl, by rw [net, sinceClear_concat]; simp [wrap64]⟩
    | inc i =>
      refine ⟨c.inc i, rfl, ?_⟩
      have hn : net (ops ++ [.inc i]) = net ops + i.toInt := by
        rw [net, sinceClear_concat]; simp [net, delta]
      rw [hn]
      simp [StandardCounter.inc, h2, wrap64]
    | dec i =>
      refine ⟨c.dec i, rfl, ?_⟩
      have hn : net (ops ++ [.dec i]) = net ops + -i.toInt := by
        rw [net, sinceClear_concat]; simp [net, delta]
      rw [hn]
      simp [StandardCounter.dec, h2, wrap64]

/-- C01, exactness: if the net sum fits in int64 the count is exactly the net sum. -/
theorem C01_counter_exact (ops : List CounterOp) (h1 : -2 ^ 63 ≤ net ops) (h2 : net ops < 2 ^ 63) :
    ∃ c, (Counter.new false).run ops = .ok c ∧ c.count.toInt = net ops := by
  obtain ⟨c, hc, hn⟩ := C01_counter_net_sum ops
  refine ⟨c, hc, ?_⟩
  rw [hn, wrap64, Int.bmod_eq_of_le] <;> omega

example : net [.inc 5, .clear, .dec (Int64.ofInt (-2 ^ 63)), .inc 1, .dec 3] = 2 ^ 63 - 2 := by decide
example : (-2 : Int) ^ 63 ≤ net [.inc 5, .clear, .inc 7, .dec 3] ∧ net [.inc 5, .clear, .inc 7, .dec 3] < 2 ^ 63 := by decide

/-! ### C02 -/

/-- A call on a shared counter. -/
inductive CounterCall where
  | upd (o : CounterOp)
  | count
  deriving DecidableEq

/-- Every method of `*StandardCounter` is one `sync/atomic` instruction (counter.go:90-107); this is its effect on the
shared word and its result. -/
def counterAtomic (c : Int64) : CounterCall → Int64 → Int64 → Prop
  | .upd o, r, c' => Counter.apply (.std ⟨c⟩) o = .ok (.std ⟨c'⟩) ∧ r = 0
  | .count, r, c' => r = Counter.count (.std ⟨c⟩) ∧ c' = c

/-- Contribution of a concurrent call. -/
def callDelta : CounterCall → Int
  | .upd o => delta o
  | .count => 0

private theorem legal_sum {s s' : Int64} {l : List (CounterCall × Int64)} (h : LegalRun counterAtomic s l s')
    (hc : ∀ x ∈ l, x.1 ≠ .upd .clear) : s'.toInt = wrap64 (s.toInt + ((l.map Prod.fst).map callDelta).sum) := by
  induction h with
  | nil => simp [wrap64]
  | @cons s s1 s2 o r l hs _ ih =>
    rw [ih (fun x hx => hc x (List.mem_cons_of_mem _ hx))]
    cases o with
    | count => obtain ⟨_, rfl⟩ := hs; simp [callDelta]
    | upd o =>
      cases o with
      | clear => exact absurd rfl (hc _ List.mem_cons_self)
      | inc i =>
        obtain ⟨h, _⟩ := hs
        simp [Counter.apply, Counter.inc, StandardCounter.inc] at h
        subst h
        simp [callDelta, delta, wrap64, add_assoc]
      | dec i =>
        obtain ⟨h, _⟩ := hs
        simp [Counter.apply, Counter.dec, StandardCounter.dec] at h
        subst h
        simp [callDelta, delta, wrap64, add_assoc]

private theorem invs_no_clear {tr : List (CEv CounterCall Int64)} {st} (hwf : Wf allIdle tr st)
    (hc : ∀ t, CEv.inv t (.upd .clear) ∉ tr) : ∀ x ∈ linSeq tr, x.1 ≠ .upd .clear := by
  intro x hx he
  have h1 : x.1 ∈ (lins tr).map Prod.snd := by rw [← linSeq_map_fst]; exact List.mem_map_of_mem hx
  obtain ⟨⟨t, o⟩, h2, h3⟩ := List.mem_map.1 h1
  have h4 : (t, o) ∈ invs tr := hwf.lins_subperm_invs.subset h2
  simp only [invs, List.mem_filterMap] at h4
  obtain ⟨e, he1, he2⟩ := h4
  cases e <;> simp at he2
  obtain ⟨rfl, rfl⟩ := he2
  simp at h3
  rw [h3, he] at he1
  exact hc _ he1

/-- C02, final value: when all goroutines have finished their Inc/Dec/Count calls (in whatever order the atomic effects
took place), the counter holds the initial value plus the net sum of every call invoked. -/
theorem C02_concurrent_final (c0 c : Int64) (tr : List (CEv CounterCall Int64))
    (hwf : Wf allIdle tr allIdle) (hrun : LegalRun counterAtomic c0 (linSeq tr) c)
    (hc : ∀ t, CEv.inv t (.upd .clear) ∉ tr) :
    c.toInt = wrap64 (c0.toInt + ((invs tr).map (fun x => callDelta x.2)).sum) := by
  rw [legal_sum hrun (invs_no_clear hwf hc), linSeq_map_fst, List.map_map]
  congr 2
  exact (hwf.lins_perm_invs.map _).sum_eq

/-- C02, reads: a `Count()` that runs concurrently with other calls returns the initial value plus the net of a collection `S` of
calls that contains every call that had returned before `Count` was invoked and only calls that were invoked before
`Count` returned. -/
theorem C02_concurrent_read (c0 c : Int64) (a b d : List (CEv CounterCall Int64)) (t : Nat) (v : Int64) (st)
    (hwf : Wf allIdle (a ++ CEv.inv t .count :: (b ++ CEv.ret t .count v :: d)) st)
    (hrun : LegalRun counterAtomic c0 (linSeq (a ++ CEv.inv t .count :: (b ++ CEv.ret t .count v :: d))) c)
    (hb : ∀ o r, CEv.ret t o r ∉ b)
    (hc : ∀ t', CEv.inv t' (.upd .clear) ∉ a ++ b) :
    ∃ S : List (Nat × CounterCall), (rets a).Subperm S ∧ S.Subperm (invs (a ++ CEv.inv t .count :: b)) ∧
      v.toInt = wrap64 (c0.toInt + (S.map (fun x => callDelta x.2)).sum) := by
  obtain ⟨st1, hw1, hw2⟩ := hwf.split
  cases hw2 with
  | @cons _ st2 _ _ _ hs hw2 =>
  obtain ⟨st3, hw3, hw4⟩ := hw2.split
  cases hw4 with
  | cons hr _ =>
  have hp : st2 t = .pend .count := by cases hs; simp
  obtain ⟨-, b1, b2, rfl⟩ := Wf.lin_between hp hw3 hr hb
  have hpre : Wf allIdle (a ++ CEv.inv t .count :: b1) (Classical.choose hw3.split) :=
    hw1.append (.cons hs (Classical.choose_spec hw3.split).1)
  refine ⟨lins (a ++ CEv.inv t .count :: b1), ?_, ?_, ?_⟩
  · refine hw1.rets_subperm_lins.trans ?_
    rw [lins_append]
    exact (List.sublist_append_left _ _).subperm
  · refine hpre.lins_subperm_invs.trans ?_
    have : (a ++ CEv.inv t .count :: (b1 ++ CEv.lin t .count v :: b2)) = (a ++ CEv.inv t .count :: b1) ++ (CEv.lin t .count v :: b2) := by simp
    rw [this, invs_append _ (CEv.lin t .count v :: b2)]
    exact (List.sublist_append_left _ _).subperm
  · have e : (a ++ CEv.inv t .count :: ((b1 ++ CEv.lin t .count v :: b2) ++ CEv.ret t .count v :: d))
        = (a ++ CEv.inv t .count :: b1) ++ (CEv.lin t .count v :: (b2 ++ CEv.ret t .count v :: d)) := by simp
    rw [e, linSeq_append] at hrun
    obtain ⟨s', hr1, hr2⟩ := hrun.split
    have hnc : ∀ t', CEv.inv t' (.upd .clear) ∉ a ++ CEv.inv t .count :: b1 := by
      intro t' hm
      apply hc t'
      simp at hm ⊢
      rcases hm with hm | hm
      · exact .inl hm
      · exact .inr (.inl hm)
    have := legal_sum hr1 (invs_no_clear hpre hnc)
    cases hr2 with
    | cons h _ =>
      obtain ⟨h, -⟩ := h
      rw [h]
      show s'.toInt = _
      rw [this, linSeq_map_fst, List.map_map]
      rfl

/-- A concrete concurrent execution meeting the hypotheses: goroutine 1 increments by 5 while goroutine 2 reads and
goroutine 1's effect comes first. -/
example : Wf allIdle ([] ++ CEv.inv 2 CounterCall.count ::
      ([CEv.inv 1 (.upd (.inc 5)), .lin 1 (.upd (.inc 5)) 0, .lin 2 .count 5] ++ CEv.ret 2 CounterCall.count 5 :: [CEv.ret 1 (.upd (.inc 5)) 0]))
      (Function.update (Function.update (Function.update (Function.update (Function.update (Function.update allIdle 2 (.pend .count)) 1
        (.pend (.upd (.inc 5)))) 1 (.done (.upd (.inc 5)) 0)) 2 (.done .count 5)) 2 .idle) 1 .idle) ∧
    LegalRun counterAtomic 0 (linSeq ([] ++ CEv.inv 2 CounterCall.count ::
      ([CEv.inv 1 (.upd (.inc 5)), .lin 1 (.upd (.inc 5)) 0, .lin 2 .count 5] ++ CEv.ret 2 CounterCall.count 5 :: [CEv.ret 1 (.upd (.inc 5)) 0]))) 5 := by
  refine ⟨?_, ?_⟩
  · refine .cons (.inv rfl) (.cons (.inv rfl) (.cons (.lin rfl) (.cons (.lin rfl) (.cons (.ret rfl) (.cons (.ret rfl) .nil)))))
  · exact .cons (s' := 5) ⟨rfl, rfl⟩ (.cons ⟨rfl, rfl⟩ .nil)

/-! ### C06, C07 -/

/-- C06 (sequential): the value of a gauge is the argument of the last Update, zero if none; no Update panics. -/
theorem C06_gauge_last (env : Nat → Int64) (us : List Int64) :
    ∃ g, us.foldlM Gauge.update (Gauge.new false) = .ok g ∧ g.value env = us.getLast?.getD 0 ∧
      (g.snapshot env).value env = us.getLast?.getD 0 := by
  suffices h : us.foldlM Gauge.update (Gauge.new false) = .ok (.std (us.getLast?.getD 0)) from ⟨_, h, rfl, rfl⟩
  induction us using List.reverseRecOn with
  | nil => rfl
  | append_singleton us u ih =>
    rw [List.foldlM_append, ih]
    simp [Gauge.update, Except.bind, bind, pure, Except.pure]

/-- C07 (and the float half of C06): for every history of updates with arbitrary bit patterns (NaN payloads, signed zeros, …)
`Value` and `Snapshot().Value` return the bits of the last update, or +0 if there was none. -/
theorem C07_float_gauge_bits (env : Nat → FloatBits) (us : List FloatBits) :
    ∃ g, us.foldlM GaugeF.update (GaugeF.new false) = .ok g ∧ g.value env = us.getLast?.getD 0 ∧
      (g.snapshot env).value env = us.getLast?.getD 0 := by
  suffices h : us.foldlM GaugeF.update (GaugeF.new false) = .ok (.std (us.getLast?.getD 0)) from ⟨_, h, rfl, rfl⟩
  induction us using List.reverseRecOn with
  | nil => rfl
  | append_singleton us u ih =>
    rw [List.foldlM_append, ih]
    simp [GaugeF.update, Except.bind, bind, pure, Except.pure]

/-- A call on a shared gauge (`α` = Int64 for `Gauge`, bit patterns for `GaugeFloat64`). -/
inductive GaugeCall (α : Type) where
  | update (v : α)
  | value
  deriving DecidableEq

/-- `StandardGauge.Update`/`Value` are one atomic store / load (gauge.go:95-102). -/
def gaugeAtomic (s : Int64) : GaugeCall Int64 → Int64 → Int64 → Prop
  | .update v, r, s' => Gauge.update (.std s) v = .ok (.std s') ∧ r = 0
  | .value, r, s' => r = Gauge.value (fun _ => 0) (.std s) ∧ s' = s

/-- `StandardGaugeFloat64.Update`/`Value` are one atomic store / load of the bits (gauge_float64.go:100-107). -/
def gaugeFAtomic (s : FloatBits) : GaugeCall FloatBits → FloatBits → FloatBits → Prop
  | .update v, r, s' => GaugeF.update (.std s) v = .ok (.std s') ∧ r = 0
  | .value, r, s' => r = GaugeF.value (fun _ => 0) (.std s) ∧ s' = s

/-- The two gauges are the same register. -/
private def regAtomic {α : Type} [Zero α] (s : α) : GaugeCall α → α → α → Prop
  | .update v, r, s' => s' = v ∧ r = 0
  | .value, r, s' => r = s ∧ s' = s

private theorem gauge_reg : gaugeAtomic = regAtomic := by
  funext s c r s'
  cases c <;> simp [gaugeAtomic, regAtomic, Gauge.update, Gauge.value, eq_comm]

private theorem gaugeF_reg : gaugeFAtomic = regAtomic := by
  funext s c r s'
  cases c <;> simp [gaugeFAtomic, regAtomic, GaugeF.update, GaugeF.value, eq_comm]

private theorem reg_run {α : Type} [Zero α] {s s' : α} {l : List (GaugeCall α × α)} (h : LegalRun regAtomic s l s') :
    (s' = s ∧ (∀ v, GaugeCall.update v ∉ l.map Prod.fst)) ∨
    ∃ l1 l2 v r, l = l1 ++ (GaugeCall.update v, r) :: l2 ∧ s' = v ∧ ∀ v, GaugeCall.update v ∉ l2.map Prod.fst := by
  induction h with
  | nil => exact .inl ⟨rfl, by simp⟩
  | @cons s s1 s2 o r l hs _ ih =>
    rcases ih with ⟨h1, h2⟩ | ⟨l1, l2, v, r', rfl, h1, h2⟩
    · cases o with
      | value => obtain ⟨-, rfl⟩ := hs; exact .inl ⟨h1, by simpa using h2⟩
      | update v => obtain ⟨rfl, -⟩ := hs; exact .inr ⟨[], l, _, r, rfl, h1, h2⟩
    · exact .inr ⟨_ :: l1, l2, v, r', rfl, h1, h2⟩

/-- The updates invoked by goroutine `t`, in program order. -/
def updatesOf {α : Type} (t : Nat) (tr : List (CEv (GaugeCall α) α)) : List α :=
  tr.filterMap fun | .inv u (.update v) => if u = t then some v else none | _ => none

/-- The updates of goroutine `t` in the order in which they take effect. -/
private def effUpdatesOf {α : Type} (t : Nat) (tr : List (CEv (GaugeCall α) α)) : List α :=
  tr.filterMap fun | .lin u (.update v) _ => if u = t then some v else none | _ => none

private def pendUpd {α : Type} (s : TS (GaugeCall α) α) : List α := match s with | .pend (.update v) => [v] | _ => []

private theorem updates_eq {α : Type} {st st' : Nat → TS (GaugeCall α) α} {tr} (h : Wf st tr st') (t : Nat) :
    pendUpd (st t) ++ updatesOf t tr = effUpdatesOf t tr ++ pendUpd (st' t) := by
  induction h with
  | nil => simp [updatesOf, effUpdatesOf]
  | @cons st st1 st2 e tr hs _ ih =>
    cases hs with
    | @inv u o hu =>
      by_cases hut : u = t
      · subst hut
        cases o <;> simp_all [updatesOf, effUpdatesOf, pendUpd]
      · cases o <;> simp_all [updatesOf, effUpdatesOf, pendUpd, Function.update_apply, Ne.symm hut]
    | @lin u o _ hu =>
      by_cases hut : u = t
      · subst hut
        cases o <;> simp_all [updatesOf, effUpdatesOf, pendUpd]
      · cases o <;> simp_all [updatesOf, effUpdatesOf, pendUpd, Function.update_apply, Ne.symm hut]
    | @ret u o _ hu =>
      by_cases hut : u = t
      · subst hut
        cases o <;> simp_all [updatesOf, effUpdatesOf, pendUpd]
      · cases o <;> simp_all [updatesOf, effUpdatesOf, pendUpd, Function.update_apply, Ne.symm hut]

private theorem reg_final {α : Type} [Zero α] {s0 s : α} {tr : List (CEv (GaugeCall α) α)} (hwf : Wf allIdle tr allIdle)
    (hrun : LegalRun regAtomic s0 (linSeq tr) s) :
    (s = s0 ∧ ∀ t, updatesOf t tr = []) ∨ ∃ t, (updatesOf t tr).getLast? = some s := by
  have hue : ∀ t, updatesOf t tr = effUpdatesOf t tr := by
    intro t; have := updates_eq hwf t; simpa [pendUpd, allIdle] using this
  rcases reg_run hrun with ⟨h1, h2⟩ | ⟨l1, l2, v, r, h, h1, h2⟩
  · left
    refine ⟨h1, fun t => ?_⟩
    rw [hue, List.eq_nil_iff_forall_not_mem]
    intro v hv
    simp only [effUpdatesOf, List.mem_filterMap] at hv
    obtain ⟨e, he, hv⟩ := hv
    match e, hv with
    | .lin u (.update w) r, hv =>
      apply h2 w
      simp only [linSeq, List.mem_map, List.mem_filterMap]
      exact ⟨(_, r), ⟨_, he, rfl⟩, rfl⟩
  · right
    obtain ⟨tr1, tr2, rfl, ht1, ht2⟩ := List.filterMap_eq_append_iff.1 h
    obtain ⟨tr3, e, tr4, rfl, he3, he, ht4⟩ := List.filterMap_eq_cons_iff.1 ht2
    match e, he with
    | .lin u o r', he =>
      simp at he
      obtain ⟨rfl, rfl⟩ := he
      refine ⟨u, ?_⟩
      rw [hue, h1]
      have hz : effUpdatesOf u tr4 = [] := by
        rw [List.eq_nil_iff_forall_not_mem]
        intro w hw
        simp only [effUpdatesOf, List.mem_filterMap] at hw
        obtain ⟨e, he, hv⟩ := hw
        match e, hv with
        | .lin u' (.update w) r, hv =>
          apply h2 w
          rw [← ht4]
          simp only [List.mem_map, List.mem_filterMap]
          exact ⟨(_, r), ⟨_, he, rfl⟩, rfl⟩
      unfold effUpdatesOf at hz ⊢
      rw [List.filterMap_append, List.filterMap_append]
      simp [hz, List.filterMap_cons]

/-- C06 (concurrent, final value): when all goroutines are done the gauge holds the last update of one of the goroutines (the
initial value if nobody updated). -/
theorem C06_concurrent_final (s0 s : Int64) (tr : List (CEv (GaugeCall Int64) Int64)) (hwf : Wf allIdle tr allIdle)
    (hrun : LegalRun gaugeAtomic s0 (linSeq tr) s) :
    (s = s0 ∧ ∀ t, updatesOf t tr = []) ∨ ∃ t, (updatesOf t tr).getLast? = some s :=
  reg_final hwf (gauge_reg ▸ hrun)

theorem C06_concurrent_final_float (s0 s : FloatBits) (tr : List (CEv (GaugeCall FloatBits) FloatBits))
    (hwf : Wf allIdle tr allIdle) (hrun : LegalRun gaugeFAtomic s0 (linSeq tr) s) :
    (s = s0 ∧ ∀ t, updatesOf t tr = []) ∨ ∃ t, (updatesOf t tr).getLast? = some s :=
  reg_final hwf (gaugeF_reg ▸ hrun)

private theorem reg_read {α : Type} [Zero α] [DecidableEq α] {s0 s : α} {tr1 tr2 : List (CEv (GaugeCall α) α)} {st t v}
    (hwf : Wf allIdle (tr1 ++ CEv.ret t .value v :: tr2) st) (hrun : LegalRun regAtomic s0 (linSeq (tr1 ++ CEv.ret t .value v :: tr2)) s) :
    v = s0 ∨ ∃ u, CEv.inv u (.update v) ∈ tr1 := by
  obtain ⟨st1, hw1, hw2⟩ := hwf.split
  cases hw2 with
  | cons hs _ =>
  -- the effect of the returning call is in tr1
  have hlin : CEv.lin t .value v ∈ tr1 := by
    have key : ∀ {st st' : Nat → TS (GaugeCall α) α} {tr}, Wf st tr st' → st' t = .done .value v →
        st t = .done .value v ∨ CEv.lin t .value v ∈ tr := by
      intro st st' tr h
      induction h with
      | nil => intro h; exact .inl h
      | @cons st st1 st2 e tr hs _ ih =>
        intro h
        rcases ih h with h | h
        · cases hs with
          | @inv u o hu => by_cases hut : u = t
                           · subst hut; simp at h
                           · left; rwa [Function.update_of_ne (Ne.symm hut)] at h
          | @ret u o _ hu => by_cases hut : u = t
                             · subst hut; simp at h
                             · left; rwa [Function.update_of_ne (Ne.symm hut)] at h
          | @lin u o r hu => by_cases hut : u = t
                             · subst hut; simp at h; obtain ⟨rfl, rfl⟩ := h; right; simp
                             · left; rwa [Function.update_of_ne (Ne.symm hut)] at h
        · exact .inr (List.mem_cons_of_mem _ h)
    cases hs with
    | ret h => rcases key hw1 h with h | h
               · simp [allIdle] at h
               · exact h
  obtain ⟨a, b, rfl⟩ := List.append_of_mem hlin
  rw [show (a ++ CEv.lin t GaugeCall.value v :: b) ++ CEv.ret t GaugeCall.value v :: tr2
      = a ++ (CEv.lin t .value v :: (b ++ CEv.ret t .value v :: tr2)) by simp, linSeq_append] at hrun
  obtain ⟨s', hr1, hr2⟩ := hrun.split
  obtain ⟨sta, hwa, -⟩ := hw1.split
  have hv : v = s' := by cases hr2 with | cons h _ => exact h.1
  rcases reg_run hr1 with ⟨h1, -⟩ | ⟨l1, l2, w, r, h, h1, -⟩
  · left; rw [hv, h1]
  · right
    have h2 : GaugeCall.update w ∈ (lins a).map Prod.snd := by rw [← linSeq_map_fst, h]; simp
    obtain ⟨⟨u, o⟩, h3, rfl⟩ := List.mem_map.1 h2
    have h4 : (u, GaugeCall.update w) ∈ invs a := hwa.lins_subperm_invs.subset h3
    simp only [invs, List.mem_filterMap] at h4
    obtain ⟨e, he1, he2⟩ := h4
    cases e <;> simp at he2
    obtain ⟨rfl, rfl⟩ := he2
    rw [hv, h1]
    exact ⟨_, List.mem_append_left _ he1⟩

/-- C06 (concurrent, reads): a `Value()` that returns `v` read the initial value or the argument of an `Update` invoked before. -/
theorem C06_concurrent_read (s0 s : Int64) (tr1 tr2 : List (CEv (GaugeCall Int64) Int64)) (st) (t : Nat) (v : Int64)
    (hwf : Wf allIdle (tr1 ++ CEv.ret t .value v :: tr2) st)
    (hrun : LegalRun gaugeAtomic s0 (linSeq (tr1 ++ CEv.ret t .value v :: tr2)) s) :
    v = s0 ∨ ∃ u, CEv.inv u (.update v) ∈ tr1 :=
  reg_read hwf (gauge_reg ▸ hrun)

theorem C06_concurrent_read_float (s0 s : FloatBits) (tr1 tr2 : List (CEv (GaugeCall FloatBits) FloatBits)) (st) (t : Nat)
    (v : FloatBits) (hwf : Wf allIdle (tr1 ++ CEv.ret t .value v :: tr2) st)
    (hrun : LegalRun gaugeFAtomic s0 (linSeq (tr1 ++ CEv.ret t .value v :: tr2)) s) :
    v = s0 ∨ ∃ u, CEv.inv u (.update v) ∈ tr1 :=
  reg_read hwf (gaugeF_reg ▸ hrun)

/-- Two goroutines update concurrently; the effects come in the opposite order of the invocations. -/
example : Wf allIdle [CEv.inv 1 (GaugeCall.update (7 : Int64)), .inv 2 (.update 9), .lin 2 (.update 9) 0, .lin 1 (.update 7) 0,
      .ret 1 (.update 7) 0, .ret 2 (.update 9) 0] allIdle ∧
    LegalRun gaugeAtomic 0 (linSeq [CEv.inv 1 (GaugeCall.update (7 : Int64)), .inv 2 (.update 9), .lin 2 (.update 9) 0,
      .lin 1 (.update 7) 0, .ret 1 (.update 7) 0, .ret 2 (.update 9) 0]) 7 := by
  refine ⟨?_, .cons (s' := 9) ⟨rfl, rfl⟩ (.cons (s' := 7) ⟨rfl, rfl⟩ .nil)⟩
  refine .cons (.inv rfl) (.cons (.inv rfl) (.cons (.lin rfl) (.cons (.lin rfl) (.cons (.ret rfl) (.cons (.ret rfl) (.nil' ?_))))))
  funext t
  simp [Function.update_apply, allIdle]
  split_ifs <;> simp_all

example : (([0x7ff8000000000001, 0x8000000000000000] : List FloatBits).getLast?.getD 0) = 0x8000000000000000 := rfl

/-! ### C09 -/

/-- The calls of the `Healthcheck` interface made by a client; the user function's behaviour during a `Check` is a verdict list. -/
inductive HealthOp where
  | healthy
  | unhealthy (e : GoError)
  | check (vs : List Verdict)

/-- Effect of one client call (`Check` runs the user function once). -/
def Health.apply (h : Health) : HealthOp → Health
  | .healthy => h.healthy
  | .unhealthy e => h.unhealthy e
  | .check vs => h.check (fun _ => vs)

/-- The verdicts given by a client call: `Check` gives exactly those of one run of the user function. -/
def HealthOp.verdicts : HealthOp → List Verdict
  | .healthy => [.healthy]
  | .unhealthy e => [.unhealthy e]
  | .check vs => vs

/-- C09: after any history the error of a healthcheck made by `NewHealthcheck` is that of the last verdict given by
`Healthy`, `Unhealthy` or a run of the user function; nil if none was given. -/
theorem C09_health_last_verdict (f : Nat) (ops : List HealthOp) :
    (ops.foldl Health.apply (Health.new false f)).error = (lastVerdict (ops.flatMap HealthOp.verdicts)).getD none := by
  have hv : ∀ (vs : List Verdict) (e : GoError), vs.foldl Health.verdict (.std e f) = .std ((lastVerdict vs).getD e) f := by
    intro vs
    induction vs using List.reverseRecOn with
    | nil => intro e; rfl
    | append_singleton vs v ih =>
      intro e
      rw [List.foldl_append, ih]
      cases v <;> simp [Health.verdict, Health.healthy, Health.unhealthy, lastVerdict]
  have : ∀ (ops : List HealthOp) (e : GoError), ops.foldl Health.apply (.std e f) = (ops.flatMap HealthOp.verdicts).foldl Health.verdict (.std e f) := by
    intro ops
    induction ops with
    | nil => intro e; rfl
    | cons o ops ih =>
      intro e
      rw [List.foldl_cons, List.flatMap_cons, List.foldl_append, hv]
      have : Health.apply (.std e f) o = .std ((lastVerdict o.verdicts).getD e) f := by
        cases o with
        | healthy => rfl
        | unhealthy e => rfl
        | check vs => exact hv vs e
      rw [this, ih, hv]
  show (ops.foldl Health.apply (.std none f)).error = _
  rw [this, hv]
  rfl

/-- C09, one check: the status after `Check` is the last verdict of the user function, the old status if it gave none. -/
theorem C09_check (env : Nat → List Verdict) (e : GoError) (f : Nat) :
    ((Health.std e f).check env).error = (lastVerdict (env f)).getD e := by
  have hv : ∀ (vs : List Verdict) (e : GoError), vs.foldl Health.verdict (.std e f) = .std ((lastVerdict vs).getD e) f := by
    intro vs
    induction vs using List.reverseRecOn with
    | nil => intro e; rfl
    | append_singleton vs v ih =>
      intro e
      rw [List.foldl_append, ih]
      cases v <;> simp [Health.verdict, Health.healthy, Health.unhealthy, lastVerdict]
  show ((env f).foldl Health.verdict (.std e f)).error = _
  rw [hv]
  rfl

example : (([.unhealthy (some 3), .check [.unhealthy (some 4), .healthy], .check []] : List HealthOp).foldl Health.apply
    (Health.new false 0)).error = none := by decide

end GoMetrics
