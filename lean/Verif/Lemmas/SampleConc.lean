import Verif.Spec.SampleConc
import Verif.Lemmas.Body
import Verif.Lemmas.SnapshotConc
import Verif.Lemmas.ExpDecay
import Verif.Lemmas.Uniform

/-! The methods of the samples hold the mutex while they use the fields; run alone, they are the methods of the sequential model. -/

set_option linter.unusedSectionVars false

namespace GoMetrics
open Spec

variable {F : Type} [GoFloat F] {S X : Type}

theorem alone_leave {r r' : SampleRes F} {s s' : S} (h : RunAlone (leave r : Body S X (SampleRes F)) s s' r') : r' = r ∧ s' = s := by
  cases h with
  | unlock h => cases h; exact ⟨rfl, rfl⟩

theorem alone_lock {R : Type} {k : Body S X R} {s s' : S} {r : R} : RunAlone (.lock k) s s' r ↔ RunAlone k s s' r := ⟨fun h => by cases h; assumption, .lock⟩
theorem alone_act {R : Type} {f : S → S} {k : S → Body S X R} {s s' : S} {r : R} : RunAlone (.act f k) s s' r ↔ RunAlone (k s) (f s) s' r := ⟨fun h => by cases h; assumption, .act⟩
theorem alone_ask {R : Type} {k : X → Body S X R} {s s' : S} {r : R} : RunAlone (.ask k) s s' r ↔ ∃ x, RunAlone (k x) s s' r := ⟨fun h => by cases h; exact ⟨_, by assumption⟩, fun ⟨x, h⟩ => .ask x h⟩
theorem alone_leave_iff {r r' : SampleRes F} {s s' : S} : RunAlone (leave r : Body S X (SampleRes F)) s s' r' ↔ r' = r ∧ s' = s := ⟨alone_leave, by rintro ⟨rfl, rfl⟩; exact .unlock .ret⟩

/-! ### UniformSample -/

theorem onValues_inside {α : Type} {fin : α → Body UniformSample Nat (SampleRes F)} (hf : ∀ a, (fin a).inside) (p : MemProg α) : (onValues fin p).inside := by
  induction p with
  | ret a => exact hf a
  | read i k ih =>
    rw [onValues]
    intro s
    dsimp only
    split
    · exact ih _
    · trivial
  | write i v k ih =>
    rw [onValues]
    intro s
    dsimp only
    split
    · exact ih
    · trivial

theorem onValues_alone {α : Type} {fin : α → Body UniformSample Nat (SampleRes F)} {p : MemProg α} {s s' : UniformSample} {r : SampleRes F} {a : α} {mem : List Int64}
    (hp : runAlone p s.values = some (a, mem)) (h : RunAlone (onValues fin p) s s' r) : RunAlone (fin a) { s with values := mem } s' r := by
  induction p generalizing s with
  | ret b => simp only [runAlone, Option.some.injEq, Prod.mk.injEq] at hp; obtain ⟨rfl, rfl⟩ := hp; exact h
  | read i k ih =>
    simp only [runAlone] at hp
    rw [onValues, alone_act] at h
    cases hv : s.values[i]? with
    | none => rw [hv] at hp; cases hp
    | some v =>
      rw [hv] at hp h
      exact ih v hp h
  | write i v k ih =>
    simp only [runAlone] at hp
    rw [onValues, alone_act] at h
    split at hp
    · rename_i hi
      rw [if_pos hi] at h
      exact ih (s := { s with values := s.values.set i v }) hp h
    · cases hp

variable [GoSqrt F]

theorem uniformBody_guarded (sorter : Nat → MemProg Unit) (c : SampleCall F) : (uniformBody sorter c).guarded := by
  cases c with
  | update v =>
    intro s0 s1 s2
    dsimp only
    split
    · intro s; trivial
    · intro s draw
      dsimp only
      split
      · trivial
      · intro s3
        dsimp only
        split
        · intro s; trivial
        · trivial
  | clear => intro s s'; trivial
  | count => intro s; trivial
  | size => intro s; trivial
  | values => intro s; refine onValues_inside ?_ _; exact fun a => trivial
  | snapshot => intro s; refine onValues_inside ?_ _; exact fun a s => trivial
  | stat c => intro s; refine onValues_inside ?_ _; exact fun a => trivial

theorem copy_alone (l : List Int64) : runAlone (readRange l.length 0 (MemProg.ret (α := List Int64))) l = some (l, l) := readAll_alone l _

theorem uniformUpdate_alone {v : Int64} {s s' : UniformSample} {r : SampleRes F} (h : RunAlone (uniformUpdate v : Body _ _ (SampleRes F)) s s' r) : UniformCall s (.update v : SampleCall F) r s' := by
  simp only [uniformUpdate, alone_lock, alone_act, id] at h
  by_cases hl : (s.values.length : Int) < s.reservoirSize
  · rw [if_pos hl, alone_act, alone_leave_iff] at h
    obtain ⟨rfl, rfl⟩ := h
    exact .inl ⟨rfl, 0, by simp [UniformSample.update, hl]⟩
  · rw [if_neg hl] at h
    simp only [alone_act, alone_ask] at h
    obtain ⟨draw, h⟩ := h
    cases hd : int63n (s.count + 1).toInt draw with
    | error p =>
      rw [id, hd, alone_leave_iff] at h
      obtain ⟨rfl, rfl⟩ := h
      exact .inr ⟨p, draw, rfl, by simp [-Int64.toInt_add, UniformSample.update, hl, hd, bind, Except.bind], rfl⟩
    | ok n =>
      simp only [id, hd, alone_act] at h
      refine .inl ?_
      by_cases hn : (n : Int) < s.values.length
      · rw [if_pos hn, alone_act, alone_leave_iff] at h
        obtain ⟨rfl, rfl⟩ := h
        exact ⟨rfl, draw, by simp [-Int64.toInt_add, UniformSample.update, hl, hd, bind, Except.bind, hn, pure, Except.pure]⟩
      · rw [if_neg hn, alone_leave_iff] at h
        obtain ⟨rfl, rfl⟩ := h
        exact ⟨rfl, draw, by simp [-Int64.toInt_add, UniformSample.update, hl, hd, bind, Except.bind, hn, pure, Except.pure]⟩

theorem uniformBody_alone {sorter : Nat → MemProg Unit} (hs : SortsInPlace sorter) {c : SampleCall F} {s s' : UniformSample} {r : SampleRes F} (h : RunAlone (uniformBody sorter c) s s' r) : UniformCall s c r s' := by
  cases c with
  | update v => exact uniformUpdate_alone h
  | clear => simp only [uniformBody, alone_lock, alone_act, alone_leave_iff] at h; exact h
  | count => simp only [uniformBody, alone_lock, alone_act, alone_leave_iff] at h; exact h
  | size => simp only [uniformBody, alone_lock, alone_act, alone_leave_iff] at h; exact h
  | values =>
    simp only [uniformBody, alone_lock, alone_act] at h
    have := onValues_alone (copy_alone s.values) h
    exact alone_leave this
  | snapshot =>
    simp only [uniformBody, alone_lock, alone_act] at h
    have := onValues_alone (copy_alone _) h
    rw [alone_act] at this
    exact alone_leave_iff.1 this
  | stat c =>
    simp only [uniformBody, alone_lock, alone_act] at h
    have := onValues_alone (snapProg_alone hs s.values c) h
    have := alone_leave this
    cases c <;> exact this

/-! ### ExpDecaySample -/

variable [GoExp F]

theorem rescaleBody_inside (t0 : Instant) (m i : Nat) : (rescaleBody t0 m i : Body (ExpDecaySample F) (Instant × F) (SampleRes F)).inside := by
  induction m generalizing i with
  | zero => trivial
  | succ m ih =>
    intro s
    dsimp only
    split
    · trivial
    · intro s
      dsimp only
      split
      · exact ih _
      · trivial

theorem expPush_inside (t : Instant) (v : Int64) : (expPush t v : Body (ExpDecaySample F) (Instant × F) (SampleRes F)).inside := by
  intro x s
  dsimp only
  split
  · trivial
  · intro s
    dsimp only
    split
    · intro a b c; exact rescaleBody_inside _ _ _
    · trivial

theorem copyItems_inside {fin : List Int64 → Body (ExpDecaySample F) (Instant × F) (SampleRes F)} (hf : ∀ l, (fin l).inside) (m i : Nat) (acc : List Int64) : (copyItems fin m i acc).inside := by
  induction m generalizing i acc with
  | zero => exact hf _
  | succ m ih =>
    intro s
    dsimp only
    split
    · exact ih _ _
    · trivial

theorem expBody_guarded (c : SampleCall F) : (expBody c).guarded := by
  cases c with
  | update v =>
    intro now s0 s1 s
    dsimp only
    split
    · intro s
      dsimp only
      split
      · trivial
      · exact expPush_inside _ _
    · exact expPush_inside _ _
  | clear => intro a b c d e; trivial
  | count => intro s; trivial
  | size => intro s; trivial
  | values => intro s; refine copyItems_inside ?_ _ _ _; exact fun l => trivial
  | snapshot => intro s; refine copyItems_inside ?_ _ _ _; exact fun l s => trivial
  | stat c => intro s; refine copyItems_inside ?_ _ _ _; exact fun l => trivial

theorem copyItems_alone {fin : List Int64 → Body (ExpDecaySample F) (Instant × F) (SampleRes F)} {s s' : ExpDecaySample F} {r : SampleRes F} (m i : Nat) (acc : List Int64) (hm : i + m = s.values.s.length)
    (h : RunAlone (copyItems fin m i acc) s s' r) : RunAlone (fin (acc ++ (s.values.s.drop i).map Item.v)) s s' r := by
  induction m generalizing i acc with
  | zero => rw [List.drop_eq_nil_of_le (by omega)]; simpa [copyItems] using h
  | succ m ih =>
    rw [copyItems, alone_act] at h
    have hi : i < s.values.s.length := by omega
    rw [List.getElem?_eq_getElem hi] at h
    have := ih (i + 1) _ (by omega) h
    rw [List.drop_eq_getElem_cons hi, List.map_cons]
    rwa [List.append_assoc, List.singleton_append] at this

theorem copyAll_alone {fin : List Int64 → Body (ExpDecaySample F) (Instant × F) (SampleRes F)} {s s' : ExpDecaySample F} {r : SampleRes F} (h : RunAlone (copyItems fin s.values.s.length 0 []) s s' r) :
    RunAlone (fin s.vals) s s' r := by
  simpa [ExpDecaySample.vals] using copyItems_alone _ _ _ (by simp) h

theorem rescaleBody_alone {t0 : Instant} {s s' : ExpDecaySample F} {r : SampleRes F} {h' : Heap F} (m i : Nat) (h : RunAlone (rescaleBody t0 m i) s s' r)
    (hl : ExpDecaySample.rescaleLoop (ExpDecaySample.factor s.alpha t0 s.t0) (i + m) i s.values = .ok h') : r = .unit ∧ s' = { s with values := h' } := by
  induction m generalizing i s with
  | zero =>
    rw [ExpDecaySample.rescaleLoop, if_neg (by omega)] at hl
    cases hl
    exact alone_leave h
  | succ m ih =>
    rw [ExpDecaySample.rescaleLoop, if_pos (by omega)] at hl
    rw [rescaleBody, alone_act] at h
    cases hx : index (s.values.s ++ s.values.rest) i with
    | error p => rw [hx] at hl; cases hl
    | ok x =>
      rw [hx] at hl h
      simp only [bind, Except.bind] at hl
      simp only [alone_act, id] at h
      cases hp : s.values.push { k := GoFloat.mul x.k (ExpDecaySample.factor s.alpha t0 s.t0), v := x.v } with
      | error p => rw [hp] at hl; cases hl
      | ok h1 =>
        rw [hp] at hl
        simp only [hp] at h
        refine ih (s := { s with values := h1 }) (i + 1) h ?_
        rw [show i + 1 + m = i + (m + 1) by omega]
        exact hl

theorem expPush_alone {t : Instant} {v : Int64} {s s' : ExpDecaySample F} {r : SampleRes F} (h : RunAlone (expPush t v : Body (ExpDecaySample F) (Instant × F) (SampleRes F)) s s' r) :
    ∃ u, ∀ h1, s.values.push { k := ExpDecaySample.key s.alpha s.t0 t u, v := v } = .ok h1 →
      (¬ t > s.t1 → r = .unit ∧ s' = { s with values := h1 }) ∧
      (t > s.t1 → ∀ h2, ExpDecaySample.rescaleLoop (ExpDecaySample.factor s.alpha s.t0 t) h1.s.length 0 h1.clear = .ok h2 → r = .unit ∧ s' = { s with t0 := t, t1 := t + hour, values := h2 }) := by
  simp only [expPush, alone_ask, alone_act] at h
  obtain ⟨x, h⟩ := h
  refine ⟨x.2, fun h1 hp => ?_⟩
  simp only [hp, alone_act, id] at h
  constructor
  · intro ht
    rw [if_neg ht] at h
    exact alone_leave h
  · intro ht h2 hl
    rw [if_pos ht] at h
    simp only [alone_act] at h
    exact rescaleBody_alone _ _ h (by simpa using hl)

/-- `Update` of a sample of the usual shape, run alone. -/
theorem expUpdate_alone {k : Nat} (hk : 0 < k) {v : Int64} {s s' : ExpDecaySample F} {r : SampleRes F} (hsh : ExpDecaySample.Shape k s) (h : RunAlone (expUpdate v : Body (ExpDecaySample F) (Instant × F) (SampleRes F)) s s' r) :
    r = .unit ∧ (∃ t u, s.update t v u = .ok s') ∧ ExpDecaySample.Shape k s' := by
  simp only [expUpdate, alone_ask, alone_lock, alone_act, id] at h
  obtain ⟨now, h⟩ := h
  -- what the sequential method does
  have seq : ∀ u h0 (_ : (if (s.values.size : Int) = s.reservoirSize then do
        let (_, h) ← s.values.pop
        return h
      else return s.values : Res (Heap F)) = .ok h0), s.update now.1 v u = (do
      let h1 ← h0.push { k := ExpDecaySample.key s.alpha s.t0 now.1 u, v := v }
      if now.1 > s.t1 then
        let h2 ← ExpDecaySample.rescaleLoop (ExpDecaySample.factor s.alpha s.t0 now.1) h1.s.length 0 h1.clear
        return { s with count := s.count + 1, t0 := now.1, t1 := now.1 + hour, values := h2 }
      else return { s with count := s.count + 1, values := h1 }) := by
    intro u h0 e
    unfold ExpDecaySample.update
    dsimp only
    rw [e]
    rfl
  have fin : ∀ h0 (_ : (if (s.values.size : Int) = s.reservoirSize then do
        let (_, h) ← s.values.pop
        return h
      else return s.values : Res (Heap F)) = .ok h0), RunAlone (expPush now.1 v) { s with count := s.count + 1, values := h0 } s' r →
      r = .unit ∧ (∃ t u, s.update t v u = .ok s') ∧ ExpDecaySample.Shape k s' := by
    intro h0 e0 h
    obtain ⟨u, hu⟩ := expPush_alone h
    obtain ⟨s2, _, _, e, hsh2, -⟩ := ExpDecaySample.update_spec k hk s hsh now.1 v u
    have e' := e
    rw [seq u h0 e0] at e
    cases hp : h0.push { k := ExpDecaySample.key s.alpha s.t0 now.1 u, v := v } with
    | error p => rw [hp] at e; cases e
    | ok h1 =>
      rw [hp] at e
      simp only [bind, Except.bind] at e
      obtain ⟨ha, hb⟩ := hu h1 hp
      by_cases ht : now.1 > s.t1
      · rw [if_pos ht] at e
        cases hr : ExpDecaySample.rescaleLoop (ExpDecaySample.factor s.alpha s.t0 now.1) h1.s.length 0 h1.clear with
        | error p => rw [hr] at e; cases e
        | ok h2 =>
          rw [hr] at e
          obtain ⟨h3, h4⟩ := hb ht h2 hr
          simp only [pure, Except.pure, Except.ok.injEq] at e
          have : s' = s2 := by rw [h4, ← e]
          exact ⟨h3, ⟨now.1, u, by rw [this, e']⟩, this ▸ hsh2⟩
      · rw [if_neg ht] at e
        obtain ⟨h3, h4⟩ := ha ht
        simp only [pure, Except.pure, Except.ok.injEq] at e
        have : s' = s2 := by rw [h4, ← e]
        exact ⟨h3, ⟨now.1, u, by rw [this, e']⟩, this ▸ hsh2⟩
  by_cases hz : (s.values.size : Int) = s.reservoirSize
  · rw [if_pos hz, alone_act] at h
    dsimp only at h
    cases hp : s.values.pop with
    | error p =>
      exfalso
      obtain ⟨s2, _, _, e, -⟩ := ExpDecaySample.update_spec k hk s hsh now.1 v (GoFloat.lit 0)
      unfold ExpDecaySample.update at e
      dsimp only at e
      rw [if_pos hz, hp] at e
      cases e
    | ok y =>
      obtain ⟨x, h0⟩ := y
      simp only [hp] at h
      exact fin h0 (by rw [if_pos hz, hp]; rfl) h
  · rw [if_neg hz] at h
    exact fin s.values (by rw [if_neg hz]; rfl) h

theorem expBody_alone {k : Nat} (hk : 0 < k) {c : SampleCall F} {s s' : ExpDecaySample F} {r : SampleRes F} (hsh : ExpDecaySample.Shape k s) (h : RunAlone (expBody c) s s' r) :
    ExpCall s c r s' ∧ ExpDecaySample.Shape k s' := by
  cases c with
  | update v =>
    obtain ⟨h1, h2, h3⟩ := expUpdate_alone hk hsh h
    exact ⟨⟨h1, h2⟩, h3⟩
  | clear =>
    simp only [expBody, alone_lock, alone_act, alone_ask, alone_leave_iff] at h
    obtain ⟨x, rfl, rfl⟩ := h
    refine ⟨⟨rfl, x.1, rfl⟩, ?_⟩
    obtain ⟨h1, h2⟩ := hsh
    exact ⟨h1, by simpa [Heap.clear] using h2⟩
  | count => simp only [expBody, alone_lock, alone_act, alone_leave_iff] at h; obtain ⟨rfl, rfl⟩ := h; exact ⟨⟨rfl, rfl⟩, hsh⟩
  | size => simp only [expBody, alone_lock, alone_act, alone_leave_iff] at h; obtain ⟨rfl, rfl⟩ := h; exact ⟨⟨rfl, rfl⟩, hsh⟩
  | values =>
    simp only [expBody, alone_lock, alone_act] at h
    obtain ⟨rfl, rfl⟩ := alone_leave (copyAll_alone h)
    exact ⟨⟨rfl, rfl⟩, hsh⟩
  | snapshot =>
    simp only [expBody, alone_lock, alone_act] at h
    have h1 := copyAll_alone h
    rw [alone_act] at h1
    obtain ⟨rfl, rfl⟩ := alone_leave h1
    exact ⟨⟨rfl, rfl⟩, hsh⟩
  | stat c =>
    simp only [expBody, alone_lock, alone_act] at h
    obtain ⟨rfl, rfl⟩ := alone_leave (copyAll_alone h)
    exact ⟨⟨by cases c <;> rfl, rfl⟩, hsh⟩

/-! ### Sequential histories -/

theorem subperm_map {α β : Type} (f : α → β) {l m : List α} (h : l.Subperm m) : (l.map f).Subperm (m.map f) :=
  let ⟨l', h1, h2⟩ := h
  ⟨l'.map f, h1.map f, h2.map f⟩

theorem subperm_filterMap {α β : Type} (f : α → Option β) {l m : List α} (h : l.Subperm m) : (l.filterMap f).Subperm (m.filterMap f) :=
  let ⟨l', h1, h2⟩ := h
  ⟨l'.filterMap f, h1.filterMap f, h2.filterMap f⟩

omit [GoSqrt F] [GoExp F] [GoFloat F] in
theorem updated_append (a b : List (SampleCall F)) : updated (a ++ b) = updated a ++ updated b := List.filterMap_append

omit [GoSqrt F] [GoExp F] [GoFloat F] in
theorem updated_changes (l : List (SampleCall F)) : updated (l.filter changes) = updated l := by
  induction l with
  | nil => rfl
  | cons c l ih =>
    rw [List.filter_cons]
    cases c with
    | update v => exact congrArg (v :: ·) ih
    | _ => exact ih

omit [GoSqrt F] [GoExp F] [GoFloat F] in
theorem uniformGiven_no_clear {ops : List UniformOp} (h : SampleCall.clear ∉ (uniformCalls ops : List (SampleCall F))) : uniformGiven ops = updated (uniformCalls ops : List (SampleCall F)) := by
  induction ops using List.reverseRecOn with
  | nil => rfl
  | append_singleton ops o ih =>
    have e : (uniformCalls (ops ++ [o]) : List (SampleCall F)) = uniformCalls ops ++ uniformCalls [o] := List.filterMap_append
    rw [e] at h ⊢
    rw [uniformGiven_snoc, updated_append, ← ih fun hm => h (List.mem_append_left _ hm)]
    cases o with
    | update v d => rfl
    | clear => exact absurd (List.mem_append_right _ (List.mem_singleton.2 rfl)) h
    | percentiles => exact (List.append_nil _).symm

omit [GoSqrt F] [GoExp F] [GoFloat F] in
theorem uniformGiven_subperm (ops : List UniformOp) : (uniformGiven ops).Subperm (updated (uniformCalls ops : List (SampleCall F))) := by
  induction ops using List.reverseRecOn with
  | nil => exact List.Subperm.refl _
  | append_singleton ops o ih =>
    have e : (uniformCalls (ops ++ [o]) : List (SampleCall F)) = uniformCalls ops ++ uniformCalls [o] := List.filterMap_append
    rw [e, uniformGiven_snoc, updated_append]
    cases o with
    | update v d => exact (List.subperm_append_right _).2 ih
    | clear => exact List.nil_subperm
    | percentiles => exact ih.trans (List.sublist_append_left _ _).subperm

omit [GoExp F] in
/-- A sequence of calls on a uniform sample, as a history of the sequential model. -/
theorem uniform_history {k : Nat} {s0 s : UniformSample} {pre : List UniformOp} {x : UniformSample} (h0 : UInv k [] x) (hx : x.run pre = .ok s0) {l : List (SampleCall F × SampleRes F)} (hr : LegalRun UniformCall s0 l s)
    (hn : nUpdates pre + (updated (l.map Prod.fst)).length < 2 ^ 63) :
    ∃ ops, x.run (pre ++ ops) = .ok s ∧ (uniformCalls ops : List (SampleCall F)) = (l.map Prod.fst).filter changes := by
  induction hr generalizing pre with
  | nil => exact ⟨[], by simpa using hx, rfl⟩
  | @cons s0 s1 s2 o r l h1 _ ih =>
    have snoc : ∀ op, s0.apply op = .ok s1 → x.run (pre ++ [op]) = .ok s1 := by
      intro op h
      unfold UniformSample.run at hx ⊢
      rw [List.foldlM_append, hx]
      simp only [List.foldlM_cons, List.foldlM_nil, bind, Except.bind, pure, Except.pure, h]
    have same : s1 = s0 → (∀ v, o ≠ .update v) → changes o = false → ∃ ops, x.run (pre ++ ops) = .ok s2 ∧ (uniformCalls ops : List (SampleCall F)) = (((o, r) :: l).map Prod.fst).filter changes := by
      rintro rfl hno hc
      have hg : updated ((((o, r) :: l : List (SampleCall F × SampleRes F))).map Prod.fst) = updated (l.map Prod.fst) := by
        cases o with
        | update v => exact absurd rfl (hno v)
        | _ => rfl
      obtain ⟨ops, h2, h3⟩ := ih hx (by rwa [hg] at hn)
      exact ⟨ops, h2, by rw [h3, List.map_cons, List.filter_cons, hc]; rfl⟩
    cases o with
    | update v =>
      have hlen : (updated ((((.update v, r) :: l : List (SampleCall F × SampleRes F))).map Prod.fst)).length = (updated (l.map Prod.fst)).length + 1 := rfl
      rw [hlen] at hn
      rcases h1 with ⟨-, draw, h1⟩ | ⟨p, draw, -, h1, -⟩
      · obtain ⟨ops, h2, h3⟩ := ih (snoc (.update v draw) h1) (by
          have : nUpdates (pre ++ [.update v draw]) = nUpdates pre + 1 := by simp [nUpdates]
          omega)
        refine ⟨.update v draw :: ops, by simpa using h2, ?_⟩
        show SampleCall.update v :: uniformCalls ops = _
        rw [h3]; rfl
      · have := uniformGiven_length_le pre
        obtain ⟨s', h2⟩ := update_ok (uniform_run_inv h0 pre s0 hx) v draw (by omega)
        rw [h1] at h2; cases h2
    | clear =>
      obtain ⟨-, rfl⟩ := h1
      obtain ⟨ops, h2, h3⟩ := ih (snoc .clear rfl) (by
        have : nUpdates (pre ++ [.clear]) = nUpdates pre := by simp [nUpdates]
        have e : updated ((((.clear, r) :: l : List (SampleCall F × SampleRes F))).map Prod.fst) = updated (l.map Prod.fst) := rfl
        rw [e] at hn
        omega)
      refine ⟨.clear :: ops, by simpa using h2, ?_⟩
      show SampleCall.clear :: uniformCalls ops = _
      rw [h3]; rfl
    | count => exact same h1.2 (by simp) rfl
    | size => exact same h1.2 (by simp) rfl
    | values => exact same h1.2 (by simp) rfl
    | snapshot => exact same h1.2 (by simp) rfl
    | stat c =>
      by_cases hc : ∃ ps, c = .percentiles ps
      · obtain ⟨ps, rfl⟩ := hc
        obtain ⟨-, rfl⟩ := h1
        obtain ⟨ops, h2, h3⟩ := ih (snoc .percentiles rfl) (by
          have : nUpdates (pre ++ [.percentiles]) = nUpdates pre := by simp [nUpdates]
          have e : updated ((((.stat (.percentiles ps), r) :: l : List (SampleCall F × SampleRes F))).map Prod.fst) = updated (l.map Prod.fst) := rfl
          rw [e] at hn
          omega)
        refine ⟨.percentiles :: ops, by simpa using h2, ?_⟩
        show uniformCalls ops = _
        rw [h3]; rfl
      · refine same ?_ (by simp) rfl
        cases c with
        | percentiles ps => exact absurd ⟨ps, rfl⟩ hc
        | _ => exact h1.2

/-- The same for an exponentially decaying sample. -/
theorem exp_history {x s0 s : ExpDecaySample F} {pre : List (ExpOp F)} (hx : x.run pre = .ok s0) {l : List (SampleCall F × SampleRes F)} (hr : LegalRun ExpCall s0 l s) :
    ∃ ops, x.run (pre ++ ops) = .ok s ∧ expCalls ops = (l.map Prod.fst).filter changes := by
  induction hr generalizing pre with
  | nil => exact ⟨[], by simpa using hx, rfl⟩
  | @cons s0 s1 s2 o r l h1 _ ih =>
    have snoc : ∀ op, s0.apply op = .ok s1 → x.run (pre ++ [op]) = .ok s1 := by
      intro op h
      unfold ExpDecaySample.run at hx ⊢
      rw [List.foldlM_append, hx]
      simp only [List.foldlM_cons, List.foldlM_nil, bind, Except.bind, pure, Except.pure, h]
    have same : s1 = s0 → changes o = false → ∃ ops, x.run (pre ++ ops) = .ok s2 ∧ expCalls ops = (((o, r) :: l).map Prod.fst).filter changes := by
      rintro rfl hc
      obtain ⟨ops, h2, h3⟩ := ih hx
      exact ⟨ops, h2, by rw [h3, List.map_cons, List.filter_cons, hc]; rfl⟩
    cases o with
    | update v =>
      obtain ⟨-, t, u, h1⟩ := h1
      obtain ⟨ops, h2, h3⟩ := ih (snoc (.update t v u) h1)
      refine ⟨.update t v u :: ops, by simpa using h2, ?_⟩
      show SampleCall.update v :: expCalls ops = _
      rw [h3]; rfl
    | clear =>
      obtain ⟨-, now, rfl⟩ := h1
      obtain ⟨ops, h2, h3⟩ := ih (snoc (.clear now) rfl)
      refine ⟨.clear now :: ops, by simpa using h2, ?_⟩
      show SampleCall.clear :: expCalls ops = _
      rw [h3]; rfl
    | count => exact same h1.2 rfl
    | size => exact same h1.2 rfl
    | values => exact same h1.2 rfl
    | snapshot => exact same h1.2 rfl
    | stat c => exact same h1.2 rfl

end GoMetrics
