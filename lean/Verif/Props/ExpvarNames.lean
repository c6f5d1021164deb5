import Verif.Props.Expvar
import Verif.Props.StatNames

/-! C66, the values: which names of metrics are safe. -/

namespace GoMetrics
open Spec

section
variable {F : Type} [GoFloat F] [GoSqrt F] [GoExp F]

omit [GoFloat F] [GoSqrt F] [GoExp F] in
private theorem labels_words (o : Obj F) (label : String) (h : label ∈ expLabels o) : isNumber o = true ∧ label = "" ∨ isNumber o = false ∧ label ≠ "" ∧ bytes label ∈ statWords o := by
  have hmem : ∀ l : List String, "" ∉ l → label ∈ l → label ≠ "" ∧ bytes label ∈ l.map bytes := fun l hl h => ⟨fun e => hl (e ▸ h), List.mem_map_of_mem h⟩
  cases o <;> simp only [expLabels, List.mem_singleton, List.not_mem_nil] at h
  · exact .inl ⟨rfl, h⟩
  · exact .inl ⟨rfl, h⟩
  · exact .inl ⟨rfl, h⟩
  · exact .inr ⟨rfl, hmem _ (by decide) h⟩
  · exact .inr ⟨rfl, hmem _ (by decide) h⟩
  · exact .inr ⟨rfl, hmem _ (by decide) h⟩

omit [GoFloat F] [GoSqrt F] [GoExp F] in
private theorem labels_inj (o : Obj F) : ∀ a ∈ expLabels o, ∀ b ∈ expLabels o, bytes a = bytes b → a = b := by
  cases o <;> simp only [expLabels] <;> decide +kernel

/-- If no counter or gauge is called like a statistic of another metric, every variable belongs to one metric. -/
private theorem owns_unique {w : World F} {g : Reg} {id : Nat} (hb : base g = some id) (hno : ¬ NamesClash w g) {n name name' : Str} {r r' : Ref} {o o' : Obj F} {label label' : String}
    (h : Owns w id (prefixes g).flatten n name r o label) (h' : Owns w id (prefixes g).flatten n name' r' o' label') : name' = name ∧ label' = label := by
  obtain ⟨h1, h2, h3, h4, h5⟩ := h
  obtain ⟨k1, k2, k3, k4, k5⟩ := h'
  have v : Visible w g name o := ⟨id, r, hb, h1, h2, h3⟩
  have v' : Visible w g name' o' := ⟨id, r', hb, k1, k2, k3⟩
  have same : name' = name → bytes label' = bytes label → name' = name ∧ label' = label := by
    rintro rfl hl
    rw [h1] at k1
    cases k1
    rw [h3] at k3
    cases k3
    exact ⟨rfl, labels_inj o _ k4 _ h4 hl⟩
  unfold varName at h5 k5
  rcases labels_words o label h4 with ⟨a1, a2⟩ | ⟨a1, a2, a3⟩ <;> rcases labels_words o' label' k4 with ⟨b1, b2⟩ | ⟨b1, b2, b3⟩
  · rw [if_pos a2, List.append_nil] at h5
    rw [if_pos b2, List.append_nil] at k5
    exact same (k5.trans h5.symm) (by rw [a2, b2])
  · rw [if_pos a2, List.append_nil] at h5
    rw [if_neg b2] at k5
    exact absurd ⟨name, o, name', o', _, v, a1, v', b3, h5.trans k5.symm⟩ hno
  · rw [if_neg a2] at h5
    rw [if_pos b2, List.append_nil] at k5
    exact absurd ⟨name', o', name, o, _, v', b1, v, a3, k5.trans h5.symm⟩ hno
  · rw [if_neg a2] at h5
    rw [if_neg b2] at k5
    have e := StatNames.word_inj ((StatNames.words_ok o').2 _ b3) ((StatNames.words_ok o).2 _ a3) (k5.trans h5.symm)
    refine same e ?_
    rw [← h5, e] at k5
    simpa using k5

end

section ieee
variable [GoSqrt F64] [GoExp F64]

/-- C66: if no counter or gauge is called like a statistic of another metric (for StatHat: C123), then after every request that returns each statistic of each metric is in the response under its own variable with its current value. -/
theorem C66_apart (w : World F64) (s : Expvar F64) (hr : ExpReach (w, s)) (env : Env F64) (g : Reg) (id : Nat) (hb : base g = some id) (hl : SamplesFit w)
    (hret : (expHandler env g (w, s)).2.1 = .returns) (hno : ¬ NamesClash w g) :
    ∃ vars, (expHandler env g (w, s)).2.2 = some vars ∧ ∀ name r o label, gets w id name = some r → (prefixes g).flatten <+: name → w.objs r = some o → label ∈ expLabels o →
      ∃ x, vars (varName name label) = some x ∧ ShowsVar w env r o label x := by
  obtain ⟨w', s', h1, h2, -⟩ := C66_right w s hr env g id hb hl hret
  refine ⟨s'.vars, by rw [h1], fun name r o label k1 k2 k3 k4 => ?_⟩
  have ho : Owns w id (prefixes g).flatten (varName name label) name r o label := ⟨k1, k2, k3, k4, rfl⟩
  exact C66_unique h2 ho fun name' r' o' label' h' => owns_unique hb hno ho h'

end ieee

-- The case of a meter "x" and a counter "x.counter".
private def fresh : Expvar F64 := { vars := fun _ => none, held := false }
private def ended : Ending → Bool
  | .returns => true
  | _ => false
example : ended (expHandler (envAt 2) defaultRegistry (World.init.run notClashing, fresh)).2.1 = true ∧ ¬ NamesClash (World.init.run notClashing : World F64) defaultRegistry :=
  ⟨by decide +kernel, notClashing_ok⟩

end GoMetrics
