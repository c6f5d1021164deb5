import Verif.Lemmas.StatNames
import Verif.Go.F64

/-! C123: different metrics have different StatHat statistics. False (`C123_refuted`); `C123_partial` says exactly when it is true. -/

namespace GoMetrics
open Spec

variable {F : Type} [GoFloat F] [GoSqrt F] [GoExp F]

section
variable (h : List (Env F × Op F)) {env : Env F} {key : Str} {g : Reg} {id : Nat} (hb : base g = some id) {w' : World F} {out : List (Event F)}
  (hd : stathatOnce env key g (World.init.run h) = ((w', out), .ok ()))
include hb hd

/-- C123: the statistics that a report posts to are the names of the counters and gauges, and the names of the other metrics (not healthchecks) with a point and a word. -/
theorem C123_names (stat : Str) : stat ∈ out.filterMap postedTo ↔
    ∃ name o, Visible (World.init.run h) g name o ∧ (isNumber o = true ∧ stat = name ∨ ∃ word ∈ statWords o, stat = name ++ 46 :: word) := by
  obtain ⟨l, -, hm, hn⟩ := StatNames.posts (run_ok h) hb hd
  rw [hn, List.mem_flatMap]
  constructor
  · rintro ⟨⟨name, r⟩, he, hs⟩
    obtain ⟨hg, hp⟩ := (hm name r).1 he
    obtain ⟨o, ho, -⟩ := objs_of (run_ok h) hg
    simp only [StatNames.namesAt, ho, StatNames.namesOf] at hs
    refine ⟨name, o, ⟨id, r, hb, hg, hp, ho⟩, ?_⟩
    split at hs
    · rename_i hi; exact .inl ⟨hi, by simpa using hs⟩
    · obtain ⟨word, hw, rfl⟩ := List.mem_map.1 hs; exact .inr ⟨word, hw, rfl⟩
  · rintro ⟨name, o, ⟨id', r, hb', hg, hp, ho⟩, hs⟩
    rw [hb] at hb'
    cases hb'
    refine ⟨(name, r), (hm name r).2 ⟨hg, hp⟩, ?_⟩
    simp only [StatNames.namesAt, ho, StatNames.namesOf]
    rcases hs with ⟨hi, rfl⟩ | ⟨word, hw, rfl⟩
    · simp [hi]
    · rw [if_neg (by cases o <;> simp [statWords, isNumber] at hw ⊢)]
      exact List.mem_map.2 ⟨word, hw, rfl⟩

/-- C123: no two posts of a report go to the same statistic, exactly if no counter or gauge is called like a statistic of another metric. Missing for the full claim: `NamesClash` can hold. -/
theorem C123_partial : (out.filterMap postedTo).Nodup ↔ ¬ NamesClash (World.init.run h) g := by
  obtain ⟨l, hk, hm, hn⟩ := StatNames.posts (run_ok h) hb hd
  rw [hn, List.nodup_flatMap]
  have hnum : ∀ {o : Obj F} {word : Str}, word ∈ statWords o → ¬ isNumber o = true := fun {o word} hw => by cases o <;> simp [statWords, isNumber] at hw ⊢
  constructor
  · rintro ⟨-, h2⟩ ⟨name, o, name', o', word, ⟨i, r, hb1, hg, hp, ho⟩, hi, ⟨i', r', hb2, hg', hp', ho'⟩, hw, he⟩
    rw [hb] at hb1 hb2
    cases hb1
    cases hb2
    have m1 : (name, r) ∈ l := (hm _ _).2 ⟨hg, hp⟩
    have m2 : (name', r') ∈ l := (hm _ _).2 ⟨hg', hp'⟩
    have hne : (name, r) ≠ (name', r') := fun e => by
      have : name = name' := congrArg Prod.fst e
      rw [this] at he
      simpa using congrArg List.length he
    haveI : Std.Symm (Function.onFun List.Disjoint (StatNames.namesAt (World.init.run h : World F))) := ⟨fun x y hd _ hx hy => hd hy hx⟩
    have hdis : List.Disjoint (StatNames.namesAt (World.init.run h) (name, r)) (StatNames.namesAt (World.init.run h) (name', r')) := h2.forall m1 m2 hne
    refine hdis (a := name) ?_ ?_
    · simp [StatNames.namesAt, ho, StatNames.namesOf, hi]
    · simp only [StatNames.namesAt, ho', StatNames.namesOf, if_neg (hnum hw)]
      exact List.mem_map.2 ⟨word, hw, he.symm⟩
  · intro hno
    have key' : ∀ name r name' r' stat, (name, r) ∈ l → (name', r') ∈ l → stat ∈ StatNames.namesAt (World.init.run h) (name, r) → stat ∈ StatNames.namesAt (World.init.run h) (name', r') → name = name' := by
      intro name r name' r' stat m1 m2 s1 s2
      obtain ⟨hg, hp⟩ := (hm _ _).1 m1
      obtain ⟨hg', hp'⟩ := (hm _ _).1 m2
      obtain ⟨o, ho, -⟩ := objs_of (run_ok h) hg
      obtain ⟨o', ho', -⟩ := objs_of (run_ok h) hg'
      have v : Visible (World.init.run h) g name o := ⟨id, r, hb, hg, hp, ho⟩
      have v' : Visible (World.init.run h) g name' o' := ⟨id, r', hb, hg', hp', ho'⟩
      simp only [StatNames.namesAt, ho, StatNames.namesOf] at s1
      simp only [StatNames.namesAt, ho', StatNames.namesOf] at s2
      split at s1 <;> split at s2
      · simp only [List.mem_singleton] at s1 s2; exact s1.symm.trans s2
      · rename_i hi _
        obtain ⟨word, hw, he⟩ := List.mem_map.1 s2
        rw [List.mem_singleton] at s1
        exact absurd ⟨name, o, name', o', word, v, hi, v', hw, by rw [he, s1]⟩ hno
      · rename_i _ hi
        obtain ⟨word, hw, he⟩ := List.mem_map.1 s1
        rw [List.mem_singleton] at s2
        exact absurd ⟨name', o', name, o, word, v', hi, v, hw, by rw [he, s2]⟩ hno
      · obtain ⟨word, hw, rfl⟩ := List.mem_map.1 s1
        obtain ⟨word', hw', he⟩ := List.mem_map.1 s2
        exact (StatNames.word_inj ((StatNames.words_ok o').2 _ hw') ((StatNames.words_ok o).2 _ hw) he).symm
    refine ⟨fun e _ => ?_, ?_⟩
    · unfold StatNames.namesAt
      split
      · exact StatNames.names_nodup _ _
      · exact List.nodup_nil
    · refine List.Pairwise.imp_of_mem ?_ (List.pairwise_map.1 hk)
      rintro ⟨name, r⟩ ⟨name', r'⟩ m1 m2 hne
      exact fun stat s1 s2 => hne (key' _ _ _ _ stat m1 m2 s1 s2)

end

/-! A meter "x" that counted 2, and a counter "x.count" that counted 1. -/

def clashing : List (Env F × Op F) :=
  [(envAt 0, .new .meter), (envAt 0, .reg defaultRegistry (.register (bytes "x") (.obj 0))), (envAt 0, .new .counter),
   (envAt 0, .reg defaultRegistry (.register (bytes "x.count") (.obj 1))), (envAt 1, .call 0 (.mark 2)), (envAt 1, .call 1 (.inc 1))]

/-- C123 is false: both go to the StatHat counter "x.count", which after one report shows 3. -/
theorem C123_refuted : (stathatOnce (envAt 2) [] defaultRegistry (World.init.run clashing : World F64)).2 = .ok () ∧
    statTotal (bytes "x.count") [] (stathatOnce (envAt 2) [] defaultRegistry (World.init.run clashing : World F64)).1.2 = 3 ∧
    countOf (World.init.run clashing : World F64) (envAt 2) 0 = 2 ∧ countOf (World.init.run clashing : World F64) (envAt 2) 1 = 1 ∧
    ¬ ((stathatOnce (envAt 2) [] defaultRegistry (World.init.run clashing : World F64)).1.2.filterMap postedTo).Nodup := by
  refine ⟨?_, by decide +kernel, by decide +kernel, by decide +kernel, by decide +kernel⟩
  have : isOk (stathatOnce (envAt 2) [] defaultRegistry (World.init.run clashing : World F64)).2 = true := by decide +kernel
  revert this
  cases (stathatOnce (envAt 2) [] defaultRegistry (World.init.run clashing : World F64)).2 <;> simp [isOk]

/-- With "x.counter" as the name of the counter there is no clash. -/
def notClashing : List (Env F × Op F) :=
  [(envAt 0, .new .meter), (envAt 0, .reg defaultRegistry (.register (bytes "x") (.obj 0))), (envAt 0, .new .counter),
   (envAt 0, .reg defaultRegistry (.register (bytes "x.counter") (.obj 1))), (envAt 1, .call 0 (.mark 2)), (envAt 1, .call 1 (.inc 1))]

private theorem of_isOk {α : Type} {x : α × Res Unit} (h : isOk x.2 = true) : x = (x.1, .ok ()) := by
  obtain ⟨a, e | u⟩ := x
  · simp [isOk] at h
  · rfl

theorem notClashing_ok : ¬ NamesClash (World.init.run notClashing : World F64) defaultRegistry :=
  (C123_partial notClashing (env := envAt 2) (key := []) rfl (of_isOk (by decide +kernel))).1 (by decide +kernel)

end GoMetrics
