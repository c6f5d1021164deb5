import Verif.Spec.SnapshotConc
import Verif.Lemmas.Stats
import Verif.Lemmas.Machine
import Mathlib.Data.List.Induction

/-! Running reads of a snapshot alone, and together when nobody writes. -/

set_option linter.unusedSectionVars false

namespace GoMetrics
open Spec GoFloat

variable {α β : Type}

theorem runAlone_bind (p : MemProg α) (f : α → MemProg β) (mem : List Int64) : runAlone (p.bind f) mem = (runAlone p mem).bind fun x => runAlone (f x.1) x.2 := by
  induction p generalizing mem with
  | ret a => rfl
  | read i k ih =>
    simp only [MemProg.bind, runAlone]
    cases mem[i]? with
    | none => rfl
    | some v => exact ih v mem
  | write i v k ih =>
    simp only [MemProg.bind, runAlone]
    split
    · exact ih _
    · rfl

theorem readsOnly_bind {p : MemProg α} {f : α → MemProg β} {mem : List Int64} (hp : readsOnly p mem) (hf : ∀ a, runAlone p mem = some (a, mem) → readsOnly (f a) mem) : readsOnly (p.bind f) mem := by
  induction p with
  | ret a => exact hf a rfl
  | read i k ih =>
    intro v hv
    exact ih v (hp v hv) fun a ha => hf a (by simp only [runAlone, hv]; exact ha)
  | write i v k _ => exact hp.elim

theorem readsOnly_mem {p : MemProg α} {mem mem' : List Int64} {a : α} (hp : readsOnly p mem) (h : runAlone p mem = some (a, mem')) : mem' = mem := by
  induction p with
  | ret b => simp only [runAlone, Option.some.injEq, Prod.mk.injEq] at h; exact h.2.symm
  | read i k ih =>
    simp only [runAlone] at h
    cases hv : mem[i]? with
    | none => simp [hv] at h
    | some v => rw [hv] at h; exact ih v (hp v hv) h
  | write i v k _ => exact hp.elim

/-! Insertion sort. -/

theorem insert_alone (k : MemProg α) (pre : List Int64) : ∀ (x : Int64) (post : List Int64), ∃ l : List Int64, l.Perm (x :: pre) ∧ (pre.Pairwise (· ≤ ·) → l.Pairwise (· ≤ ·)) ∧
    runAlone (insertProg pre.length k) (pre ++ x :: post) = runAlone k (l ++ post) := by
  induction pre using List.reverseRecOn with
  | nil => intro x post; exact ⟨[x], List.Perm.refl _, fun _ => List.pairwise_singleton _ _, rfl⟩
  | append_singleton pre y ih =>
    intro x post
    have e1 : (pre ++ [y] ++ x :: post)[pre.length + 1]? = some x := by
      rw [List.getElem?_append_right (by simp)]; simp
    have e0 : (pre ++ [y] ++ x :: post)[pre.length]? = some y := by
      rw [List.append_assoc, List.getElem?_append_right (by simp)]; simp
    have hlen : (pre ++ [y]).length = pre.length + 1 := by simp
    rw [hlen]
    simp only [insertProg, runAlone, e1, e0]
    by_cases hxy : x < y
    · simp only [hxy, if_true, runAlone, e1, e0]
      have hs : ((pre ++ [y] ++ x :: post).set (pre.length + 1) y).set pre.length x = pre ++ x :: (y :: post) := by
        apply List.ext_getElem?
        intro n
        simp only [List.getElem?_set, List.length_set]
        rcases lt_trichotomy n pre.length with h | h | h
        · rw [if_neg (by omega), if_neg (by omega), List.append_assoc, List.getElem?_append_left h, List.getElem?_append_left h]
        · subst h; simp
        · rw [if_neg (by omega)]
          by_cases h2 : n = pre.length + 1
          · subst h2; simp
          · obtain ⟨m, rfl⟩ : ∃ m, n = pre.length + (m + 2) := ⟨n - pre.length - 2, by omega⟩
            have hm : pre.length + (m + 2) - pre.length = m + 2 := by omega
            rw [if_neg (by omega), List.append_assoc]
            rw [List.getElem?_append_right (l₁ := pre) (by omega), List.getElem?_append_right (l₁ := pre) (by omega), hm]
            rfl
      rw [if_pos (by simp), if_pos (by simp), hs]
      obtain ⟨l, hp, hso, he⟩ := ih x (y :: post)
      refine ⟨l ++ [y], ?_, ?_, by simp [he]⟩
      · calc (l ++ [y]).Perm ((x :: pre) ++ [y]) := hp.append_right _
          _ = x :: (pre ++ [y]) := rfl
      · intro h
        rw [List.pairwise_append] at h ⊢
        refine ⟨hso h.1, List.pairwise_singleton _ _, fun a ha b hb => ?_⟩
        simp only [List.mem_singleton] at hb
        subst hb
        rcases List.mem_cons.1 (hp.mem_iff.1 ha) with rfl | ha
        · exact Int64.le_of_lt hxy
        · exact h.2.2 a ha b (by simp)
    · simp only [hxy, if_false]
      refine ⟨pre ++ [y] ++ [x], ?_, ?_, by simp⟩
      · exact List.perm_append_comm
      · intro h
        rw [List.pairwise_append]
        refine ⟨h, List.pairwise_singleton _ _, fun a ha b hb => ?_⟩
        simp only [List.mem_singleton] at hb
        subst hb
        have hyx : y ≤ b := Int64.not_lt.1 hxy
        rcases List.mem_append.1 ha with ha | ha
        · exact Int64.le_trans ((List.pairwise_append.1 h).2.2 a ha y (by simp)) hyx
        · simp only [List.mem_singleton] at ha; exact ha ▸ hyx

theorem rounds_alone (k : MemProg α) (b : List Int64) : ∀ a : List Int64, a.Pairwise (· ≤ ·) → runAlone (sortRounds b.length a.length k) (a ++ b) = runAlone k (sortInts (a ++ b)) := by
  induction b with
  | nil => intro a ha; simp [sortRounds, sortInts_of_sorted ha]
  | cons x b ih =>
    intro a ha
    obtain ⟨l, hp, hs, he⟩ := insert_alone (sortRounds b.length (a.length + 1) k) a x b
    have hl : l.length = a.length + 1 := by simpa using hp.length_eq
    have hperm : (l ++ b).Perm (a ++ x :: b) := (hp.append_right b).trans List.perm_middle.symm
    show runAlone (insertProg a.length (sortRounds b.length (a.length + 1) k)) (a ++ x :: b) = _
    rw [he, ← hl, ih l (hs ha), sortInts_eq_of_perm hperm]

theorem insert_calm {mem : List Int64} (hm : mem.Pairwise (· ≤ ·)) {k : MemProg α} (hk : readsOnly k mem) (j : Nat) : readsOnly (insertProg j k) mem := by
  cases j with
  | zero => exact hk
  | succ j =>
    intro a ha b hb
    have hab : ¬ a < b := by
      rw [List.getElem?_eq_some_iff] at ha hb
      obtain ⟨h1, rfl⟩ := ha
      obtain ⟨h2, rfl⟩ := hb
      exact Int64.not_lt.2 (List.pairwise_iff_getElem.1 hm j (j + 1) h2 h1 (by omega))
    simpa only [hab, if_false] using hk

theorem sortProg_ok : SortsInPlace sortProg := by
  constructor
  · intro mem
    cases mem with
    | nil => rfl
    | cons x b => simpa [sortProg, runAlone] using rounds_alone (.ret ()) b [x] (List.pairwise_singleton _ _)
  · intro mem hm
    have key : ∀ m i, readsOnly (sortRounds m i (.ret ())) mem := by
      intro m
      induction m with
      | zero => intro i; trivial
      | succ m ih => intro i; exact insert_calm hm (ih _) i
    exact key _ _

/-! The statistics. -/

theorem readRange_alone (mem : List Int64) (k : List Int64 → MemProg α) : ∀ (b a : List Int64), mem = a ++ b → runAlone (readRange b.length a.length k) mem = runAlone (k b) mem ∧
    (readsOnly (k b) mem → readsOnly (readRange b.length a.length k) mem) := by
  intro b
  induction b generalizing k with
  | nil => intro a _; exact ⟨rfl, id⟩
  | cons v b ih =>
    intro a h
    have e : mem[a.length]? = some v := by simp [h]
    have := ih (fun l => k (v :: l)) (a ++ [v]) (by simp [h])
    simp only [List.length_append, List.length_singleton] at this
    constructor
    · simp only [List.length_cons, readRange, runAlone, e]; exact this.1
    · intro hk w hw
      rw [e] at hw
      cases hw
      exact this.2 hk

theorem readAll_alone (mem : List Int64) (k : List Int64 → MemProg α) : runAlone (readRange mem.length 0 k) mem = runAlone (k mem) mem := (readRange_alone mem k mem [] rfl).1
theorem readAll_calm (mem : List Int64) (k : List Int64 → MemProg α) (h : readsOnly (k mem) mem) : readsOnly (readRange mem.length 0 k) mem := (readRange_alone mem k mem [] rfl).2 h

theorem readProg_alone (mem : List Int64) (i : Int) (k : Int64 → MemProg (Res α)) : runAlone (readProg mem.length i k) mem = (match index mem i with | .ok v => runAlone (k v) mem | .error e => some (.error e, mem)) ∧
    ((∀ v, index mem i = .ok v → readsOnly (k v) mem) → readsOnly (readProg mem.length i k) mem) := by
  unfold readProg index
  by_cases h0 : 0 ≤ i
  · by_cases h1 : i < mem.length
    · have h2 : i.toNat < mem.length := by omega
      rw [if_pos ⟨h0, h1⟩, if_pos h0]
      simp only [runAlone, List.getElem?_eq_getElem h2]
      refine ⟨trivial, fun h w hw => h w ?_⟩
      rw [List.getElem?_eq_getElem h2] at hw
      simp only [Option.some.injEq] at hw
      simp [hw]
    · have h2 : mem[i.toNat]? = none := List.getElem?_eq_none (by omega)
      rw [if_neg (by omega), if_pos h0, h2]
      exact ⟨rfl, fun _ => trivial⟩
  · rw [if_neg (by omega), if_neg h0]
    exact ⟨rfl, fun _ => trivial⟩

variable {F : Type} [GoFloat F]

theorem scoreProg_alone (mem : List Int64) (p : F) (k : F → MemProg (Res α)) : runAlone (scoreProg mem.length p k) mem = (match percentileSorted mem p with | .ok x => runAlone (k x) mem | .error e => some (.error e, mem)) ∧
    ((∀ x, percentileSorted mem p = .ok x → readsOnly (k x) mem) → readsOnly (scoreProg mem.length p k) mem) := by
  unfold scoreProg percentileSorted
  dsimp only
  split
  · have := readProg_alone mem 0 fun v => k (ofInt v.toInt)
    rw [this.1]
    refine ⟨by cases index mem 0 <;> rfl, fun h => this.2 fun v hv => h _ ?_⟩
    rw [hv]; rfl
  · split
    · have := readProg_alone mem ((mem.length : Int) - 1) fun v => k (ofInt v.toInt)
      rw [this.1]
      refine ⟨by cases index mem ((mem.length : Int) - 1) <;> rfl, fun h => this.2 fun v hv => h _ ?_⟩
      rw [hv]; rfl
    · have h1 := readProg_alone mem (toInt (mul p (ofInt ((mem.length : Int) + 1))) - 1) fun l => readProg mem.length (toInt (mul p (ofInt ((mem.length : Int) + 1)))) fun u =>
        k (add (ofInt l.toInt) (mul (sub (mul p (ofInt ((mem.length : Int) + 1))) (floor (mul p (ofInt ((mem.length : Int) + 1))))) (sub (ofInt u.toInt) (ofInt l.toInt))))
      have h2 := fun (l : Int64) => readProg_alone mem (toInt (mul p (ofInt ((mem.length : Int) + 1)))) fun u =>
        k (add (ofInt l.toInt) (mul (sub (mul p (ofInt ((mem.length : Int) + 1))) (floor (mul p (ofInt ((mem.length : Int) + 1))))) (sub (ofInt u.toInt) (ofInt l.toInt))))
      constructor
      · rw [h1.1]
        cases hl : index mem (toInt (mul p (ofInt ((mem.length : Int) + 1))) - 1) with
        | error e => rfl
        | ok l =>
          simp only [(h2 l).1]
          cases hu : index mem (toInt (mul p (ofInt ((mem.length : Int) + 1)))) with
          | error e => rfl
          | ok u => rfl
      · intro h
        refine h1.2 fun l hl => (h2 l).2 fun u hu => h _ ?_
        rw [hl, hu]
        rfl

theorem scoresProg_alone (mem : List Int64) (ps : List F) : ∀ k : List F → MemProg (Res α), runAlone (scoresProg mem.length ps k) mem = (match ps.mapM (percentileSorted mem) with
      | .ok xs => runAlone (k xs) mem | .error e => some (.error e, mem)) ∧
    ((∀ xs, ps.mapM (percentileSorted mem) = .ok xs → readsOnly (k xs) mem) → readsOnly (scoresProg mem.length ps k) mem) := by
  induction ps with
  | nil => intro k; exact ⟨rfl, fun h => h [] rfl⟩
  | cons p ps ih =>
    intro k
    have h1 := scoreProg_alone mem p fun x => scoresProg mem.length ps fun xs => k (x :: xs)
    constructor
    · show runAlone (scoreProg mem.length p fun x => scoresProg mem.length ps fun xs => k (x :: xs)) mem = _
      rw [h1.1, List.mapM_cons]
      cases hp : percentileSorted mem p with
      | error e => rfl
      | ok x =>
        simp only [(ih fun xs => k (x :: xs)).1]
        cases hps : ps.mapM (percentileSorted mem) <;> rfl
    · intro h
      refine h1.2 fun x hx => (ih _).2 fun xs hxs => h (x :: xs) ?_
      rw [List.mapM_cons, hx, hxs]
      rfl

/-- The slice after a call run alone. -/
def memAfter (values : List Int64) : SnapCall F → List Int64
  | .percentiles _ => sortInts values
  | _ => values

theorem varianceProg_alone (mem : List Int64) (k : F → MemProg α) : runAlone (varianceProg mem.length k) mem = runAlone (k (sampleVariance mem)) mem ∧
    (readsOnly (k (sampleVariance mem)) mem → readsOnly (varianceProg mem.length k) mem) := by
  unfold varianceProg sampleVariance
  split
  · exact ⟨rfl, id⟩
  · dsimp only
    constructor
    · rw [readAll_alone, readAll_alone]
    · intro h
      exact readAll_calm _ _ (readAll_calm _ _ h)

variable [GoSqrt F]

theorem sortInts_nil : sortInts [] = [] := rfl

theorem snapProg_alone {sorter : Nat → MemProg Unit} (hs : SortsInPlace sorter) (values : List Int64) (c : SnapCall F) :
    runAlone (snapProg sorter values.length c) values = some (statOf values c, memAfter values c) := by
  cases c with
  | max => exact readAll_alone _ _
  | min => exact readAll_alone _ _
  | sum => exact readAll_alone _ _
  | mean => exact readAll_alone _ _
  | variance => exact (varianceProg_alone values fun x : F => .ret (SnapRes.float x)).1
  | stdDev => exact (varianceProg_alone values fun x : F => .ret (SnapRes.float (GoSqrt.sqrt x))).1
  | percentiles ps =>
    simp only [snapProg, statOf, memAfter, percentilesProg, samplePercentiles]
    rw [runAlone_bind]
    by_cases h : 0 < values.length
    · simp only [h, if_true]
      rw [runAlone_bind, hs.sorts]
      simp only [Option.bind_some]
      have h2 := (scoresProg_alone (sortInts values) ps fun xs => MemProg.ret (.ok xs)).1
      rw [sortInts_length] at h2
      rw [h2]
      cases ps.mapM (percentileSorted (sortInts values)) <;> rfl
    · simp only [h, if_false, runAlone, Option.bind_some]
      obtain rfl : values = [] := by cases values <;> simp_all
      rfl

theorem snapProg_calm {sorter : Nat → MemProg Unit} (hs : SortsInPlace sorter) {values : List Int64} (c : SnapCall F) (hv : values.Pairwise (· ≤ ·) ∨ ∀ ps, c ≠ .percentiles ps) :
    readsOnly (snapProg sorter values.length c) values := by
  cases c with
  | max => exact readAll_calm _ _ trivial
  | min => exact readAll_calm _ _ trivial
  | sum => exact readAll_calm _ _ trivial
  | mean => exact readAll_calm _ _ trivial
  | variance => exact (varianceProg_alone values fun x : F => .ret (SnapRes.float x)).2 trivial
  | stdDev => exact (varianceProg_alone values fun x : F => .ret (SnapRes.float (GoSqrt.sqrt x))).2 trivial
  | percentiles ps =>
    refine readsOnly_bind ?_ fun _ _ => trivial
    unfold percentilesProg
    split
    · exact readsOnly_bind (hs.calm values (hv.resolve_right fun h => h ps rfl)) fun _ _ => (scoresProg_alone values ps _).2 fun _ _ => trivial
    · trivial

/-! The machine. -/

/-- Nobody writes: the slice stays, and every running call is on its way to the right result. -/
def CalmInv (values mem : List Int64) (ls : Nat → SnapL F) (tr : List (SnapEv F)) : Prop :=
  mem = values ∧ (∀ t c p, ls t = .run c p → readsOnly p values ∧ runAlone p values = some (statOf values c, values)) ∧ ∀ t c r, .ret t c r ∈ tr → r = statOf values c

theorem calm_inv {sorter : Nat → MemProg Unit} (hs : SortsInPlace sorter) {values : List Int64} {sched mem ls tr}
    (hv : values.Pairwise (· ≤ ·) ∨ ∀ x ∈ sched, ∀ ps, x.2 ≠ .call (.percentiles ps))
    (h : (snapMachine F sorter).run values (fun _ => .idle) sched = some (mem, ls, tr)) : CalmInv values mem ls tr := by
  refine (snapMachine F sorter).induct_on (fun i => values.Pairwise (· ≤ ·) ∨ ∀ ps, i ≠ .call (.percentiles ps)) (CalmInv values) ⟨rfl, by simp, by simp⟩ ?_ sched mem ls tr
    (fun x hx => hv.imp id fun h => h x hx) h
  rintro mem ls tr t i mem' l' es hi ⟨rfl, hl, hr⟩ hst
  replace hst : snapStep sorter t i mem (ls t) = some (mem', l', es) := hst
  have hlt := hl t
  unfold snapStep at hst
  generalize ls t = l at hst hlt
  split at hst
  · cases hst
    refine ⟨rfl, fun u c p hu => ?_, by simpa using hr⟩
    by_cases e : u = t
    · subst e
      simp only [Function.update_self, SnapL.run.injEq] at hu
      obtain ⟨rfl, rfl⟩ := hu
      have hc := snapProg_calm (values := mem) hs ‹SnapCall F› (hi.imp id fun h ps e => h ps (congrArg _ e))
      refine ⟨hc, ?_⟩
      have h1 := snapProg_alone hs mem ‹SnapCall F›
      rwa [readsOnly_mem hc h1] at h1
    · rw [Function.update_of_ne e] at hu; exact hl u c p hu
  · cases hst
    have := (hlt _ _ rfl).2
    simp only [runAlone, Option.some.injEq, Prod.mk.injEq] at this
    refine ⟨rfl, fun u c p hu => ?_, fun u c r hm => ?_⟩
    · by_cases e : u = t
      · subst e; simp at hu
      · rw [Function.update_of_ne e] at hu; exact hl u c p hu
    · rcases List.mem_append.1 hm with hm | hm
      · exact hr u c r hm
      · simp only [List.mem_singleton, SnapEv.ret.injEq] at hm
        obtain ⟨rfl, rfl, rfl⟩ := hm
        exact this.1
  · split at hst
    · cases hst
      have h1 := hlt _ _ rfl
      refine ⟨rfl, fun u c p hu => ?_, by simpa using hr⟩
      by_cases e : u = t
      · subst e
        simp only [Function.update_self, SnapL.run.injEq] at hu
        obtain ⟨rfl, rfl⟩ := hu
        refine ⟨h1.1 _ ‹_›, ?_⟩
        have h2 := h1.2
        simp only [runAlone] at h2
        rw [‹mem[_]? = some _›] at h2
        exact h2
      · rw [Function.update_of_ne e] at hu; exact hl u c p hu
    · cases hst
  · exact (hlt _ _ rfl).1.elim
  · cases hst

/-- A running call can always take its next step, when nobody writes. -/
theorem CalmInv.progress {sorter : Nat → MemProg Unit} {values mem : List Int64} {ls : Nat → SnapL F} {tr : List (SnapEv F)} (h : CalmInv values mem ls tr) {t : Nat} (ht : ls t ≠ .idle) :
    ∃ x, snapStep sorter t .step mem (ls t) = some x := by
  obtain ⟨rfl, hl, -⟩ := h
  have hlt := hl t
  generalize ls t = l at ht hlt
  cases l with
  | idle => exact absurd rfl ht
  | run c p =>
    have h1 := hlt c p rfl
    cases p with
    | ret r => exact ⟨_, rfl⟩
    | read i k =>
      cases hv : mem[i]? with
      | none => simp [runAlone, hv] at h1
      | some v => exact ⟨_, by simp only [snapStep, hv]; rfl⟩
    | write i v k => exact h1.1.elim

/-- Alone, a goroutine completes its call. -/
theorem run_alone (sorter : Nat → MemProg Unit) (t : Nat) (c : SnapCall F) (p : MemProg (SnapRes F)) : ∀ (mem mem' : List Int64) (r : SnapRes F) (ls : Nat → SnapL F), ls t = .run c p →
    runAlone p mem = some (r, mem') → ∃ n, (snapMachine F sorter).run mem ls (List.replicate n (t, .step)) = some (mem', Function.update ls t .idle, [.ret t c r]) := by
  induction p with
  | ret a =>
    intro mem mem' r ls hl h
    simp only [runAlone, Option.some.injEq, Prod.mk.injEq] at h
    obtain ⟨rfl, rfl⟩ := h
    exact ⟨1, by simp [Machine.run, snapMachine, snapStep, hl]⟩
  | read i k ih =>
    intro mem mem' r ls hl h
    simp only [runAlone] at h
    cases hv : mem[i]? with
    | none => simp [hv] at h
    | some v =>
      rw [hv] at h
      obtain ⟨n, hn⟩ := ih v mem mem' r (Function.update ls t (.run c (k v))) (by simp) h
      refine ⟨n + 1, ?_⟩
      simp only [snapMachine] at hn
      simp [List.replicate_succ, Machine.run, snapMachine, snapStep, hl, hv, hn]
  | write i v k ih =>
    intro mem mem' r ls hl h
    simp only [runAlone] at h
    split at h
    · rename_i hi
      obtain ⟨n, hn⟩ := ih (mem.set i v) mem' r (Function.update ls t (.run c k)) (by simp) h
      refine ⟨n + 1, ?_⟩
      simp only [snapMachine] at hn
      simp [List.replicate_succ, Machine.run, snapMachine, snapStep, hl, hi, hn]
    · cases h

end GoMetrics
