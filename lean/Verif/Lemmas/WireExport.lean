import Verif.Lemmas.Wire
import Verif.Lemmas.Net
import Mathlib.Data.List.Perm.Basic

/-! A server reads the lines of the exporters one by one. -/

namespace GoMetrics
open Spec

/-- The server turns the line printed by `e` into `s`. -/
def ReadsAs (line : Str → Option Sample) (errText : Nat → Str) (e : Event F64) (s : Sample) : Prop :=
  ∃ l, textOfEvents (render errText) [e] = l ++ [10] ∧ (10 : UInt8) ∉ l ∧ line l = some s

theorem textOfEvents_cons (rend : List (Piece (Field F64)) → Str) (e : Event F64) (es : List (Event F64)) : textOfEvents rend (e :: es) = textOfEvents rend [e] ++ textOfEvents rend es := by
  cases e <;> simp [textOfEvents]

theorem read_events {line : Str → Option Sample} {errText : Nat → Str} {evs : List (Event F64)} {ss : List Sample} (h : List.Forall₂ (ReadsAs line errText) evs ss) :
    readLines line (textOfEvents (render errText) evs) = some ss := by
  have : ∃ ls, textOfEvents (render errText) evs = (ls.map fun l => l ++ [10]).flatten ∧ (∀ l ∈ ls, (10 : UInt8) ∉ l) ∧ List.Forall₂ (fun l s => line l = some s) ls ss := by
    induction h with
    | nil => exact ⟨[], rfl, by simp, .nil⟩
    | @cons e s evs ss h _ ih =>
      obtain ⟨l, h1, h2, h3⟩ := h
      obtain ⟨ls, h4, h5, h6⟩ := ih
      refine ⟨l :: ls, by rw [textOfEvents_cons, h1, h4]; rfl, ?_, .cons h3 h6⟩
      intro l' hl'
      rcases List.mem_cons.1 hl' with rfl | hl'
      · exact h2
      · exact h5 _ hl'
  obtain ⟨ls, h1, h2, h3⟩ := this
  rw [h1, readLines_eq line ls h2]
  exact mapM_of_forall₂ h3

theorem exported_read {line : Str → Option Sample} {errText : Nat → Str} {w : World F64} {id : Nat} {pre : Str} {out : List (Event F64)} {block : Str → Ref → Obj F64 → List (Event F64) → Prop}
    {block' : Str → Ref → Obj F64 → List Sample → Prop} (h : Exported w id pre out block)
    (hb : ∀ name r o evs, gets w id name = some r → pre <+: name → w.objs r = some o → block name r o evs → ∃ ss, List.Forall₂ (ReadsAs line errText) evs ss ∧ block' name r o ss) :
    ∃ ss, readLines line (textOfEvents (render errText) out) = some ss ∧ Exported w id pre ss block' := by
  obtain ⟨blocks, rfl, h2, h3, h4⟩ := h
  have key : ∀ bs : List (Str × Ref × List (Event F64)), (∀ b ∈ bs, b ∈ blocks) → ∃ bs' : List (Str × Ref × List Sample), bs'.map (fun b => b.1) = bs.map (fun b => b.1) ∧
      List.Forall₂ (ReadsAs line errText) (bs.map fun b => b.2.2).flatten (bs'.map fun b => b.2.2).flatten ∧
      ∀ name r ss, (name, r, ss) ∈ bs' → gets w id name = some r ∧ ∃ o, w.objs r = some o ∧ block' name r o ss := by
    intro bs
    induction bs with
    | nil => exact fun _ => ⟨[], rfl, .nil, by simp⟩
    | cons b bs ih =>
      intro hbs
      obtain ⟨bs', k1, k2, k3⟩ := ih fun b hb => hbs b (by simp [hb])
      obtain ⟨name, r, evs⟩ := b
      have hmem := hbs _ (List.mem_cons_self ..)
      obtain ⟨g1, o, g2, g3⟩ := h4 name r evs hmem
      have hp := ((h3 name).1 (List.mem_map.2 ⟨_, hmem, rfl⟩)).2
      obtain ⟨ss, g4, g5⟩ := hb name r o evs g1 hp g2 g3
      refine ⟨(name, r, ss) :: bs', by simp [k1], ?_, ?_⟩
      · simp only [List.map_cons, List.flatten_cons]
        exact List.rel_append g4 k2
      · intro n r' ss' hm
        rcases List.mem_cons.1 hm with he | hm
        · cases he; exact ⟨g1, o, g2, g5⟩
        · exact k3 n r' ss' hm
  obtain ⟨bs', k1, k2, k3⟩ := key blocks fun _ h => h
  refine ⟨_, read_events k2, bs', rfl, by rw [k1]; exact h2, ?_, k3⟩
  intro name
  rw [k1]
  exact h3 name

theorem forall₂_read {α : Type} {line : Str → Option Sample} {errText : Nat → Str} {P : α → Event F64 → Prop} {Q : α → Sample → Prop} {rows : List α} {evs : List (Event F64)}
    (h : List.Forall₂ P rows evs) (hs : ∀ row ∈ rows, ∀ e, P row e → ∃ s, ReadsAs line errText e s ∧ Q row s) : ∃ ss, List.Forall₂ (ReadsAs line errText) evs ss ∧ List.Forall₂ Q rows ss := by
  induction h with
  | nil => exact ⟨[], .nil, .nil⟩
  | @cons row e rows evs h _ ih =>
    obtain ⟨ss, h1, h2⟩ := ih fun row hr => hs row (by simp [hr])
    obtain ⟨s, h3, h4⟩ := hs row (by simp) e h
    exact ⟨s :: ss, .cons h3 h1, .cons h4 h2⟩

theorem graphite_samples {errText : Nat → Str} {key : F64 → Str} {pre name : Str} {now : Int64} {rows : List (String × Field F64)} {prows : List (F64 × Field F64)} {evs : List (Event F64)}
    (h : GraphiteBlock key pre name now rows prows evs) (h1 : Plain pre) (h2 : Plain name) (h3 : ∀ x ∈ prows, Plain (key x.1)) (hv : ∀ row ∈ rows, Numeric row.2) (hp : ∀ row ∈ prows, Numeric row.2) :
    ∃ ss, List.Forall₂ (ReadsAs readGraphiteLine errText) evs ss ∧ GraphiteSamples key pre name now rows prows ss := by
  obtain ⟨hl, lines, plines, hperm, hf, hg⟩ := h
  obtain ⟨s1, k1, k2⟩ := forall₂_read (line := readGraphiteLine) (errText := errText) (Q := fun row s => IsSample pre name now [] (bytes row.1) row.2 s) hf fun row hr e he => by
    obtain ⟨l, s, a, b, c, d⟩ := graphite_read errText he h1 h2 (hl row hr).plain (hv row hr)
    exact ⟨s, ⟨l, a, b, c⟩, d⟩
  obtain ⟨s2, k3, k4⟩ := forall₂_read (line := readGraphiteLine) (errText := errText) (Q := fun row s => IsSample pre name now [] (key row.1 ++ bytes "-percentile") row.2 s) hg fun row hr e he => by
    obtain ⟨l, s, a, b, c, d⟩ := graphite_read errText he h1 h2 ((h3 row hr).append (by unfold Plain; decide)) (hp row hr)
    exact ⟨s, ⟨l, a, b, c⟩, d⟩
  obtain ⟨ss, k5, k6⟩ := List.perm_comp_forall₂ hperm (List.rel_append k1 k3)
  exact ⟨ss, k5, s1, s2, k6, k2, k4⟩

/-! ### Paths -/

/-- All labels. -/
def allLabels : List String :=
  ["count", "min", "max", "mean", "stddev", "std-dev", "median", "50-percentile", "75%", "75-percentile", "95%", "95-percentile", "99%", "99-percentile", "99.9%", "999-percentile",
    "1-min rate", "1-min", "one-minute", "5-min rate", "5-min", "five-minute", "15-min rate", "15-min", "fifteen-minute", "mean rate", "mean-rate", "", "value", "error"]

theorem distributionLabel_mem {l : String} {c : Call F64} (h : distributionLabel l = some c) : l ∈ allLabels := by
  unfold distributionLabel at h
  split at h <;> first | (cases h; done) | decide

theorem rateLabel_mem {l : String} {c : Call F64} (h : rateLabel l = some c) : l ∈ allLabels := by
  unfold rateLabel at h
  split at h <;> first | (cases h; done) | decide

theorem means_mem {o : Obj F64} {l : String} {c : Call F64} (h : means o l = some c) : l ∈ allLabels := by
  unfold means at h
  split at h
  all_goals first
    | decide
    | exact distributionLabel_mem h
    | exact rateLabel_mem h
    | (rcases h1 : (distributionLabel l : Option (Call F64)) with _ | d
       · rw [h1] at h; exact rateLabel_mem h
       · exact distributionLabel_mem h1)
    | (cases h; done)

theorem bytes_labels : ∀ a ∈ allLabels, ∀ b ∈ allLabels, bytes a = bytes b → a = b := by decide +kernel

theorem percentile_labels : ∀ a ∈ allLabels, bytes "-percentile" <:+ bytes a → a ∈ ["50-percentile", "75-percentile", "95-percentile", "99-percentile", "999-percentile"] := by decide +kernel

theorem means_percentile {o : Obj F64} {l : String} (hl : l ∈ ["50-percentile", "75-percentile", "95-percentile", "99-percentile", "999-percentile"]) {c : Call F64} (h : means o l = some c) :
    ∃ p, c = .stat (.percentile p) := by
  simp only [List.mem_cons, List.not_mem_nil, or_false] at hl
  rcases hl with rfl | rfl | rfl | rfl | rfl <;> cases o <;> first | (cases h; done) | exact ⟨_, (Option.some.inj h).symm⟩

theorem pathOf_inj {pre n1 n2 l1 l2 : Str} (h1 : (46 : UInt8) ∉ l1) (h2 : (46 : UInt8) ∉ l2) (h : pathOf pre n1 l1 = pathOf pre n2 l2) : n1 = n2 ∧ l1 = l2 := by
  unfold pathOf at h
  have h := (List.cons.inj (List.append_cancel_left h)).2
  rcases List.append_eq_append_iff.1 h with ⟨a, ha, hb⟩ | ⟨a, ha, hb⟩
  · cases a with
    | nil => simp at ha hb; exact ⟨ha.symm, hb⟩
    | cons x a => simp only [List.cons_append, List.cons.injEq] at hb; exact absurd (by rw [hb.2]; simp) h1
  · cases a with
    | nil => simp at ha hb; exact ⟨ha, hb.symm⟩
    | cons x a => simp only [List.cons_append, List.cons.injEq] at hb; exact absurd (by rw [hb.2]; simp) h2

theorem Spec.IsLabel.no_point {s : Str} (h : IsLabel s) : (46 : UInt8) ∉ s := by
  intro hb
  rcases h.2 46 hb with h | h | h
  · exact absurd h (by decide)
  · exact absurd h (by decide)
  · exact absurd h (by decide)

theorem stats_nodup (o : Obj F64) {ps : List F64} (h : ps.Nodup) : (statsOf ps o).Nodup := by
  have hp : (ps.map fun p => (.stat (.percentile p) : Call F64)).Nodup := h.map fun a b h => by simpa using h
  cases o with
  | hist x =>
    simp only [statsOf, distribution]
    refine List.Nodup.append (by simp) hp ?_
    intro c hc hd
    obtain ⟨p, -, rfl⟩ := List.mem_map.1 hd
    simp at hc
  | timer x =>
    simp only [statsOf, distribution, allRates]
    refine List.Nodup.append (List.Nodup.append (by simp) hp ?_) (by simp) ?_
    · intro c hc hd
      obtain ⟨p, -, rfl⟩ := List.mem_map.1 hd
      simp at hc
    · intro c hc hd
      simp only [List.mem_append, List.mem_map] at hc
      rcases hc with hc | ⟨p, -, rfl⟩
      · simp only [List.mem_cons, List.not_mem_nil, or_false] at hc hd
        rcases hc with rfl | rfl | rfl | rfl | rfl <;> simp at hd
      · simp at hd
  | _ => simp [statsOf, allRates]

/-- The labels of a complete list of rows are distinct. -/
theorem Spec.Complete.labels {w : World F64} {env : Env F64} {r : Ref} {o : Obj F64} {ps : List F64} {conv : Call F64 → Field F64 → Field F64} {rows : List (String × Field F64)}
    (h : Complete w env r o ps conv rows) (hp : ps.Nodup) : (rows.map fun x => bytes x.1).Nodup := by
  have h1 : (rows.map fun x => means o x.1).Nodup := h.1.nodup_iff.2 ((stats_nodup o hp).map (Option.some_injective _))
  have h2 : (rows.map Prod.fst).Nodup := by
    have : (rows.map fun x => means o x.1) = (rows.map Prod.fst).map (means o) := by simp
    rw [this] at h1
    exact h1.of_map
  have h3 : ∀ l ∈ rows.map Prod.fst, l ∈ allLabels := by
    intro l hl
    obtain ⟨x, hx, rfl⟩ := List.mem_map.1 hl
    have : means o x.1 ∈ (statsOf ps o).map some := h.1.mem_iff.1 (List.mem_map.2 ⟨x, hx, rfl⟩)
    obtain ⟨c, -, hc⟩ := List.mem_map.1 this
    exact means_mem hc.symm
  have : (rows.map fun x => bytes x.1) = (rows.map Prod.fst).map bytes := by simp
  rw [this]
  exact List.Nodup.map_on (fun a ha b hb h => bytes_labels a (h3 a ha) b (h3 b hb) h) h2

/-- Without percentiles among the rows no label looks like one. -/
theorem Spec.Complete.not_percentile {w : World F64} {env : Env F64} {r : Ref} {o : Obj F64} {conv : Call F64 → Field F64 → Field F64} {rows : List (String × Field F64)}
    (h : Complete w env r o [] conv rows) {x : String × Field F64} (hx : x ∈ rows) (key : Str) : bytes x.1 ≠ key ++ bytes "-percentile" := by
  intro he
  have : means o x.1 ∈ (statsOf [] o).map some := h.1.mem_iff.1 (List.mem_map.2 ⟨x, hx, rfl⟩)
  obtain ⟨c, hc, hm⟩ := List.mem_map.1 this
  obtain ⟨p, rfl⟩ := means_percentile (percentile_labels _ (means_mem hm.symm) ⟨key, he.symm⟩) hm.symm
  cases o <;> simp [statsOf, distribution, allRates] at hc

/-- If within a metric all paths are distinct and start with its name, all paths are distinct. -/
theorem exported_paths {w : World F64} {id : Nat} {pre : Str} {ss : List Sample} {block : Str → Ref → Obj F64 → List Sample → Prop} (h : Exported w id pre ss block) (p : Str)
    (hb : ∀ name r o l, w.objs r = some o → block name r o l → (l.map Sample.path).Nodup ∧ ∀ s ∈ l, ∃ label, (46 : UInt8) ∉ label ∧ s.path = pathOf p name label) : (ss.map Sample.path).Nodup := by
  obtain ⟨blocks, rfl, h2, -, h4⟩ := h
  have hbl : ∀ b ∈ blocks, (b.2.2.map Sample.path).Nodup ∧ ∀ s ∈ b.2.2, ∃ label, (46 : UInt8) ∉ label ∧ s.path = pathOf p b.1 label := by
    rintro ⟨name, r, l⟩ hm
    obtain ⟨-, o, ho, hbl⟩ := h4 name r l hm
    exact hb name r o l ho hbl
  clear h4
  induction blocks with
  | nil => simp
  | cons b bs ih =>
    simp only [List.map_cons, List.nodup_cons] at h2
    simp only [List.map_cons, List.flatten_cons, List.map_append]
    refine List.Nodup.append (hbl b (by simp)).1 (ih h2.2 fun b hb => hbl b (by simp [hb])) ?_
    intro q hq hq'
    obtain ⟨s, hs, rfl⟩ := List.mem_map.1 hq
    obtain ⟨s', hs', he⟩ := List.mem_map.1 hq'
    obtain ⟨l', hl', hs'⟩ := List.mem_flatten.1 hs'
    obtain ⟨b', hb', rfl⟩ := List.mem_map.1 hl'
    obtain ⟨la, ha, ea⟩ := (hbl b (by simp)).2 s hs
    obtain ⟨lb, hb2, eb⟩ := (hbl b' (by simp [hb'])).2 s' hs'
    have := (pathOf_inj ha hb2 (ea.symm.trans (he.symm.trans eb))).1
    exact h2.1 (List.mem_map.2 ⟨b', hb', this.symm⟩)

theorem paths_of {α : Type} {pre name : Str} {now : Int64} {tags : List Str} {label : α × Field F64 → Str} {rows : List (α × Field F64)} {ss : List Sample}
    (h : List.Forall₂ (fun row s => IsSample pre name now tags (label row) row.2 s) rows ss) : ss.map Sample.path = (rows.map label).map (pathOf pre name) := by
  induction h with
  | nil => rfl
  | cons h _ ih => simp only [List.map_cons, h.1, ih]

end GoMetrics
