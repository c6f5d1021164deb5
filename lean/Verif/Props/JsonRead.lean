import Verif.Lemmas.JsonRead
import Verif.Props.Json
import Verif.Spec.JsonDoc

/-! Property theorems C90: what a JSON parser reads. -/

set_option linter.unusedSectionVars false

namespace GoMetrics
open Spec

theorem jsonField_read (sh : Shortest) (short : Bool) (errText : Nat → Str) (v : GoMetrics.Field F64) (hv : representable v) :
    ∃ j, ReadAs (jsonText (goJson sh short errText) v) j ∧ Denotes errText v j := by
  cases v with
  | int n => exact ⟨_, readAs_num fun rest hr => readNum_int n.toInt hr, rfl⟩
  | float x =>
    obtain ⟨q, rfl⟩ := C65_numbers.2.2.2 x hv
    obtain ⟨r, h1, h2⟩ := jsonFloat_read sh q
    exact ⟨_, readAs_num h2, q, r, rfl, rfl, h1⟩
  | bits b =>
    obtain ⟨q, hq⟩ : ∃ q, F64.ofBits b = .fin q := by
      simp only [F64.ofBits]
      rw [if_neg (show ¬ b.toNat / 2 ^ 52 % 2 ^ 11 = 2047 from hv)]
      split_ifs <;> exact ⟨_, rfl⟩
    obtain ⟨r, h1, h2⟩ := jsonFloat_read sh q
    refine ⟨.num r, readAs_num fun rest hr => ?_, r, rfl, by rw [h1, ofBits_round hq, hq]⟩
    show readNum (jsonFloat sh (.ofBits b) ++ rest) = _
    rw [hq]
    exact h2 rest hr
  | errText e => exact ⟨_, readAs_str short (errText e), rfl⟩
  | nil => exact ⟨_, readAs_null, rfl⟩

private theorem holds_unique {w : World F64} {env : Env F64} {r : Ref} {c : Call F64} {v v' : GoMetrics.Field F64} (h : Holds w env r c v) (h' : Holds w env r c v') : v = v' := by
  by_cases hc : c = .stat .stdDev
  · rw [h.1 hc, h'.1 hc]
  · have h1 := h.2 hc
    have h2 := h'.2 hc
    generalize observe (checked env w r) env r c = x at h1 h2
    rcases x with p | (_ | _ | _ | _ | _ | _ | _)
    all_goals first
      | (simp only [shows] at h1 h2; done)
      | (simp only [shows] at h1 h2; rw [h1, h2])
      | (rename_i e; cases e <;> simp only [shows] at h1 h2 <;> rw [h1, h2])

private theorem all_read (sh : Shortest) (short : Bool) (errText : Nat → Str) (w : World F64) (env : Env F64) (r : Ref) {l : List (String × Call F64)} {fs : List (Str × GoMetrics.Field F64)}
    (h : List.Forall₂ (fun (kc : String × Call F64) f => f.1 = bytes kc.1 ∧ Holds w env r kc.2 f.2) l fs) (hn : ∀ kc ∈ l, ∀ v, Holds w env r kc.2 v → representable v) :
    ∃ js : List (Str × Str × Json), List.Forall₂ (fun f m => (m.1, m.2.1) = (f.1, jsonText (goJson sh short errText) f.2)) fs js ∧ (∀ x ∈ js, ReadAs x.2.1 x.2.2) ∧
      List.Forall₂ (fun (kc : String × Call F64) (f : Str × Json) => f.1 = bytes kc.1 ∧ ∃ v, Holds w env r kc.2 v ∧ Denotes errText v f.2) l (js.map fun m => (m.1, m.2.2)) := by
  induction h with
  | nil => exact ⟨[], .nil, by simp, .nil⟩
  | @cons kc f l fs h1 h2 ih =>
    obtain ⟨js, g1, g2, g3⟩ := ih fun kc hk => hn kc (by simp [hk])
    obtain ⟨j, k1, k2⟩ := jsonField_read sh short errText f.2 (hn kc (by simp) f.2 h1.2)
    refine ⟨(f.1, jsonText (goJson sh short errText) f.2, j) :: js, .cons rfl g1, ?_, .cons ⟨h1.1, f.2, h1.2, k2⟩ g3⟩
    intro x hx
    rcases List.mem_cons.1 hx with rfl | hx
    · exact k1
    · exact g2 x hx

private theorem forall2_exists {α β : Type} {P : α → β → Prop} {l : List α} (h : ∀ a ∈ l, ∃ b, P a b) : ∃ m, List.Forall₂ P l m := by
  induction l with
  | nil => exact ⟨[], .nil⟩
  | cons a l ih =>
    obtain ⟨b, hb⟩ := h a (by simp)
    obtain ⟨m, hm⟩ := ih fun a ha => h a (by simp [ha])
    exact ⟨b :: m, .cons hb hm⟩

private theorem forall2_map_eq {α β γ : Type} {P : α → β → Prop} {f : α → γ} {g : β → γ} {l : List α} {m : List β} (h : List.Forall₂ P l m) (hP : ∀ a b, P a b → g b = f a) : m.map g = l.map f := by
  induction h with
  | nil => rfl
  | cons h1 _ ih => simp [hP _ _ h1, ih]

private theorem forall2_right {α β : Type} {P : α → β → Prop} {l : List α} {m : List β} (h : List.Forall₂ P l m) {b : β} (hb : b ∈ m) : ∃ a ∈ l, P a b := by
  induction h with
  | nil => simp at hb
  | cons h1 _ ih =>
    rcases List.mem_cons.1 hb with rfl | hb
    · exact ⟨_, by simp, h1⟩
    · obtain ⟨a, ha, hp⟩ := ih hb
      exact ⟨a, by simp [ha], hp⟩

private theorem getAll_some (env : Env F64) (g : Reg) (id : Nat) (hb : base g = some id) (w w' : World F64) : getAll env g w ≠ (w', .ok none) := by
  induction g with
  | std id' =>
    simp only [getAll]
    rcases each env (.std id') (getAllCallback env) (w, []) with ⟨⟨w1, d⟩, _ | _⟩ <;> simp
  | prefixed u p ih => exact ih (by simpa [base] using hb)
  | foreign => simp [base] at hb

private theorem fields_chars (o : Obj F64) : ∀ kc ∈ fieldsOf o, chars (bytes kc.1) = kc.1.toList.map Char.toNat := by
  cases o <;> (simp only [fieldsOf, fieldsOf.distribution, fieldsOf.rates, List.cons_append, List.nil_append, List.forall_mem_cons]; decide +kernel)
private theorem fields_keys (o : Obj F64) : ((fieldsOf o).map fun x => chars (bytes x.1)).Nodup := by
  cases o <;> (simp only [fieldsOf, fieldsOf.distribution, fieldsOf.rates, List.map, List.cons_append, List.nil_append]; decide +kernel)

section
variable (h : List (Env F64 × Op F64)) (env : Env F64) (sh : Shortest) (short : Bool) (errText : Nat → Str) (srt : KeySorter) (g : Reg) (id : Nat) (hb : base g = some id) (w' : World F64) (out : Str)
  (hw : writeJSONOnce env (goJson sh short errText) srt g (World.init.run h) = (w', .ok out))
include hb hw

/-- C90: whatever the names of the metrics are, the output of `WriteJSONOnce` is empty, because some value is NaN or infinite, or a JSON text with exactly the metrics of the registry, exactly
their fields, and their values. -/
theorem C90_reads : (out = [] ∧ ∃ name r o kc v, gets (World.init.run h : World F64) id name = some r ∧ (World.init.run h : World F64).objs r = some o ∧ kc ∈ fieldsOf o ∧
      Holds (World.init.run h) env r kc.2 v ∧ ¬ representable v) ∨
    ReadsAs errText (World.init.run h) env id out := by
  obtain ⟨data, hd⟩ : ∃ data, getAll env g (World.init.run h) = (w', .ok (some data)) := by
    have hs := getAll_some env g id hb (World.init.run h)
    simp only [writeJSONOnce, marshalJSON] at hw
    generalize getAll env g (World.init.run h) = x at hw hs
    obtain ⟨w1, _ | _ | data⟩ := x
    · simp at hw
    · exact absurd rfl (hs w1)
    · simp only at hw
      generalize jsonMarshal (goJson sh short errText) srt data = y at hw
      cases y <;> cases hw <;> exact ⟨data, rfl⟩
  by_cases hn : ∀ (name : Str) (r : Ref) (o : Obj F64) (kc : String × Call F64) (v : GoMetrics.Field F64), gets (World.init.run h : World F64) id name = some r →
      (World.init.run h : World F64).objs r = some o → kc ∈ fieldsOf o → Holds (World.init.run h) env r kc.2 v → representable v
  · right
    obtain ⟨text, h1, -, ms, h2, h3, h4, h5⟩ := C65_partial h env (goJson sh short errText) srt g id hb w' data hd hn
    rw [h1] at hw
    cases hw
    generalize World.init.run h = w at *
    obtain ⟨Js, hJ⟩ := forall2_exists (l := ms) (P := fun m (J : Str × List (Str × Str × Json)) => J.1 = m.1 ∧
        J.2.map (fun x => (x.1, x.2.1)) = m.2.map (fun f => (f.1, jsonText (goJson sh short errText) f.2)) ∧ (∀ x ∈ J.2, ReadAs x.2.1 x.2.2) ∧
        ∃ r o, gets w id m.1 = some r ∧ w.objs r = some o ∧ ∃ js' : List (Str × Str × Json), js'.Perm J.2 ∧
          List.Forall₂ (fun (kc : String × Call F64) (f : Str × Json) => f.1 = bytes kc.1 ∧ ∃ v, Holds w env r kc.2 v ∧ Denotes errText v f.2) (fieldsOf o) (js'.map fun m => (m.1, m.2.2))) (by
      rintro ⟨name, fs⟩ hm
      obtain ⟨r, o, g1, g2, -, fs', g3, g4⟩ := h5 name fs hm
      obtain ⟨js', k1, k2, k3⟩ := all_read sh short errText w env r g4 fun kc hk v hv => hn name r o kc v g1 g2 hk hv
      obtain ⟨js, l1, l2⟩ := List.perm_comp_forall₂ g3.symm k1
      exact ⟨(name, js), rfl, forall2_map_eq l1 fun a b hab => hab, fun x hx => k2 x (l2.mem_iff.1 hx), r, o, g1, g2, js', l2.symm, k3⟩)
    have hf : Js.map Prod.fst = ms.map Prod.fst := forall2_map_eq hJ fun a b hab => hab.1
    refine ⟨Js.map fun J => (J.1, J.2.map fun x => (x.1, x.2.2)), ?_, ?_, ?_, ?_⟩
    · have ht : text = jsonObject (jsonQuote short) ((Js.map fun J => (J.1, jsonObject (jsonQuote short) (J.2.map fun x => (x.1, x.2.1)), Json.obj (J.2.map fun x => (chars x.1, x.2.2)))).map
          fun m => (m.1, m.2.1)) := by
        rw [h2, List.map_map]
        show jsonObject (jsonQuote short) _ = _
        congr 1
        refine (forall2_map_eq hJ fun a b hab => ?_).symm
        simp only [Function.comp_def]
        rw [hab.1, hab.2.1]
        rfl
      rw [ht]
      have := (readJson_of (readAs_obj short (Js.map fun J => (J.1, jsonObject (jsonQuote short) (J.2.map fun x => (x.1, x.2.1)), Json.obj (J.2.map fun x => (chars x.1, x.2.2)))) (by
        intro x hx
        obtain ⟨J, hJm, rfl⟩ := List.mem_map.1 hx
        obtain ⟨m, -, hp⟩ := forall2_right hJ hJm
        exact readAs_obj short J.2 hp.2.2.1))).2
      rw [this]
      simp only [List.map_map, Function.comp_def]
    · rw [List.map_map]
      show (Js.map Prod.fst).Nodup
      rw [hf]
      exact h3.imp fun hab e => by subst e; exact absurd ((before_iff _ _).2 hab) (List.lt_irrefl _)
    · intro name
      rw [List.map_map]
      show name ∈ Js.map Prod.fst ↔ _
      rw [hf]
      exact h4 name
    · intro name fs hfs
      obtain ⟨J, hJm, e⟩ := List.mem_map.1 hfs
      simp only [Prod.mk.injEq] at e
      obtain ⟨rfl, rfl⟩ := e
      obtain ⟨m, -, k1, -, -, r, o, k2, k3, js', k4, k5⟩ := forall2_right hJ hJm
      exact ⟨r, o, by rw [k1]; exact k2, k3, _, k4.map _, k5⟩
  · left
    push Not at hn
    obtain ⟨name, r, o, kc, v, h1, h2, h3, h4, h5⟩ := hn
    have := C65_nothing h env (goJson sh short errText) srt g id hb w' data hd name r o h1 h2 kc h3 fun v' hv' => by rwa [holds_unique hv' h4]
    rw [this.1] at hw
    cases hw
    exact ⟨rfl, name, r, o, kc, v, h1, h2, h3, h4, h5⟩

/-- C90: if the names are UTF-8, then a reader that looks up a bound name finds one object, and in it, under the name of a field, one value, that of the accessor; and it finds nothing under other
names. -/
theorem C90_lookup (hne : out ≠ []) (hu : ∀ name, gets (World.init.run h : World F64) id name ≠ none → ValidText name) : ∃ doc, readJson out = some doc ∧
    ∀ cs : List Nat, (∀ c ∈ cs, Scalar c) →
      (gets (World.init.run h : World F64) id (utf8Text cs) = none → doc.member cs = []) ∧
      ∀ r o, gets (World.init.run h : World F64) id (utf8Text cs) = some r → (World.init.run h : World F64).objs r = some o →
        ∃ inner, doc.member cs = [inner] ∧ ∀ kc ∈ fieldsOf o, ∃ v j, inner.member (kc.1.toList.map Char.toNat) = [j] ∧ Holds (World.init.run h) env r kc.2 v ∧ Denotes errText v j := by
  rcases C90_reads h env sh short errText srt g id hb w' out hw with ⟨h0, -⟩ | ⟨ms, h1, h2, h3, h4⟩
  · exact absurd h0 hne
  generalize World.init.run h = w at *
  refine ⟨_, h1, fun cs hcs => ?_⟩
  have hinj : ∀ m ∈ ms.map Prod.fst, ∀ name, ValidText name → chars m = chars name → m = name := by
    rintro m hm name ⟨ds, k1, rfl⟩ e
    obtain ⟨ds', k2, rfl⟩ := hu m ((h3 m).1 hm)
    rw [chars_text k1, chars_text k2] at e
    rw [e]
  have hkeys : ((ms.map fun m => (chars m.1, Json.obj (m.2.map fun f => (chars f.1, f.2)))).map Prod.fst) = (ms.map Prod.fst).map chars := by simp only [List.map_map, Function.comp_def]
  refine ⟨fun hg => member_none ?_, fun r o hg ho => ?_⟩
  · rw [hkeys]
    intro hm
    obtain ⟨m, hm, e⟩ := List.mem_map.1 hm
    have := hinj m hm (utf8Text cs) ⟨cs, hcs, rfl⟩ (by rw [e, chars_text hcs])
    subst this
    exact (h3 _).1 hm hg
  · have hm : utf8Text cs ∈ ms.map Prod.fst := (h3 _).2 (by rw [hg]; simp)
    obtain ⟨⟨name, fs⟩, hmm, e⟩ := List.mem_map.1 hm
    simp only at e
    subst e
    obtain ⟨r', o', k1, k2, fs', k3, k4⟩ := h4 _ fs hmm
    rw [hg] at k1
    cases k1
    rw [ho] at k2
    cases k2
    refine ⟨.obj (fs.map fun f => (chars f.1, f.2)), member_one ?_ ?_, fun kc hk => ?_⟩
    · rw [hkeys]
      refine List.Nodup.map_on (fun x hx y hy e => hinj x hx y (hu y ((h3 y).1 hy)) e) h2
    · exact List.mem_map.2 ⟨(utf8Text cs, fs), hmm, by simp only [chars_text hcs]⟩
    · have hl : ∀ (l : List (String × Call F64)) (m : List (Str × Json)), List.Forall₂ (fun (kc : String × Call F64) (f : Str × Json) => f.1 = bytes kc.1 ∧ ∃ v, Holds w env r kc.2 v ∧ Denotes errText v f.2) l m →
          kc ∈ l → ∃ f ∈ m, f.1 = bytes kc.1 ∧ ∃ v, Holds w env r kc.2 v ∧ Denotes errText v f.2 := by
        intro l m hf hk
        induction hf with
        | nil => simp at hk
        | cons g1 _ ih =>
          rcases List.mem_cons.1 hk with rfl | hk
          · exact ⟨_, by simp, g1⟩
          · obtain ⟨f, g2, g3⟩ := ih hk
            exact ⟨f, by simp [g2], g3⟩
      obtain ⟨f, g1, g2, v, g3, g4⟩ := hl _ _ k4 hk
      refine ⟨v, f.2, member_one ?_ ?_, g3, g4⟩
      · rw [List.map_map]
        show (fs.map fun f => chars f.1).Nodup
        have e1 : (fs'.map fun f => chars f.1) = (fieldsOf o).map fun x => chars (bytes x.1) := forall2_map_eq k4 fun a b hab => by rw [hab.1]
        rw [← (k3.map fun f => chars f.1).nodup_iff, e1]
        exact fields_keys o
      · exact List.mem_map.2 ⟨f, k3.mem_iff.1 g1, by rw [g2, fields_chars o kc hk]⟩
end

/-- There are digits that are read as the same float64. -/
private theorem digits_exist (q : ℚ) (hq : 0 < q) : ∃ d : Nat × Int, 0 < d.1 ∧ F64.round ((d.1 : ℚ) * (10 : ℚ) ^ d.2) = F64.round q := by
  have hp : 0 < F64.overflowAt := lt_trans (by norm_num) (F64.pow_lt_overflowAt (n := 53) (by norm_num))
  have h0 := rnd_nonneg hq.le
  have eq_of : ∀ x : ℚ, rnd x = rnd q → F64.round x = F64.round q := fun x h => by unfold F64.round; rw [h]
  by_cases h1 : F64.overflowAt ≤ rnd q
  · refine ⟨(⌈q⌉₊, 0), Nat.ceil_pos.2 hq, ?_⟩
    have h2 : rnd q ≤ rnd (⌈q⌉₊ : ℚ) := rnd_mono (Nat.le_ceil q)
    simp only [zpow_zero, mul_one]
    unfold F64.round
    rw [if_pos h1, if_pos (h1.trans h2)]
  · rcases h0.eq_or_lt with h2 | h2
    · obtain ⟨k, hk⟩ := exists_pow_lt_of_lt_one hq (show (1 / 10 : ℚ) < 1 by norm_num)
      have e : (1 / 10 : ℚ) ^ k = (10 : ℚ) ^ (-(k : ℤ)) := by rw [zpow_neg, zpow_natCast, one_div, inv_pow]
      refine ⟨(1, -k), by norm_num, eq_of _ ?_⟩
      simp only [Nat.cast_one, one_mul]
      rw [← e, ← h2]
      exact le_antisymm ((rnd_mono hk.le).trans h2.ge) (rnd_nonneg (by positivity))
    · obtain ⟨a, e, hae⟩ : ∃ (a e : ℤ), rnd q = (a : ℚ) * 2 ^ e := ⟨_, _, rfl⟩
      have ha : 0 < a := by
        have : (0 : ℚ) < a := by
          rw [hae] at h2
          exact pos_of_mul_pos_left h2 (by positivity)
        exact_mod_cast this
      have hn : ((a.toNat : ℕ) : ℚ) = a := by
        have : ((a.toNat : ℕ) : ℤ) = a := Int.toNat_of_nonneg ha.le
        exact_mod_cast this
      rcases le_or_gt 0 e with he | he
      · refine ⟨(a.toNat * 2 ^ e.toNat, 0), by simp; omega, eq_of _ ?_⟩
        have : ((a.toNat * 2 ^ e.toNat : ℕ) : ℚ) * 10 ^ (0 : ℤ) = rnd q := by
          rw [hae, Nat.cast_mul, hn, Nat.cast_pow, zpow_zero, mul_one, ← zpow_natCast, Int.toNat_of_nonneg he]
          rfl
        rw [this, rnd_rnd]
      · refine ⟨(a.toNat * 5 ^ (-e).toNat, e), by simp; omega, eq_of _ ?_⟩
        have : ((a.toNat * 5 ^ (-e).toNat : ℕ) : ℚ) * 10 ^ e = rnd q := by
          rw [hae, Nat.cast_mul, hn, Nat.cast_pow, ← zpow_natCast, Int.toNat_of_nonneg (by omega), zpow_neg, show (10 : ℚ) = 5 * 2 by norm_num, mul_zpow]
          have : (5 : ℚ) ^ e ≠ 0 := by positivity
          push_cast
          field_simp
        rw [this, rnd_rnd]

-- Digits as `Shortest` describes them exist.
example : Nonempty Shortest := by
  classical
  refine ⟨⟨fun q => if h : 0 < q then (digits_exist q h).choose else (0, 0), fun q h => ?_, fun q h => ?_⟩⟩
  · rw [dif_pos h]; exact (digits_exist q h).choose_spec.1
  · rw [dif_pos h]; exact (digits_exist q h).choose_spec.2

private def keyLE' {α : Type} (a b : Str × α) : Prop := ¬ b.1 < a.1
private instance {α : Type} : DecidableRel (keyLE' (α := α)) := fun _ _ => inferInstanceAs (Decidable (¬ _))
private instance {α : Type} : Std.Total (keyLE' (α := α)) := ⟨fun a b => by
  by_cases h : b.1 < a.1
  · exact .inr (lt_asym h)
  · exact .inl h⟩
private instance {α : Type} : IsTrans (Str × α) keyLE' := ⟨fun a b c h1 h2 h => by
  rcases lt_tri b.1 a.1 with h3 | h3 | h3
  · exact h1 h3
  · rw [← h3] at h; exact h2 h
  · exact h2 (lt_trans' h h3)⟩
private def byKey : KeySorter where
  sort l := l.insertionSort keyLE'
  perm _ := List.perm_insertionSort ..
  sorted _ := List.pairwise_insertionSort keyLE' _

/-- Two counters with 1 and 2. -/
private def twoCounters (a b : Str) : List (Env F64 × Op F64) :=
  [(envAt 0, .new .counter), (envAt 0, .new .counter), (envAt 1, .call 0 (.inc 1)), (envAt 1, .call 1 (.inc 2)),
   (envAt 1, .reg (.std 0) (.register a (.obj 0))), (envAt 1, .reg (.std 0) (.register b (.obj 1)))]

private def memberCount (text : Str) (k : List Nat) : Option Nat := (readJson text).map fun j => (j.member k).length

/-- C90 is false for names that are not UTF-8: with counters under the two names 0xFE and 0xFF, the output is the same as with counters under one name, U+FFFD, twice. A reader that looks for it
finds two members. -/
theorem C90_refuted : ∃ (h : List (Env F64 × Op F64)) (env : Env F64) (a b : Str), a ≠ b ∧ gets (World.init.run h : World F64) 0 a ≠ none ∧ gets (World.init.run h : World F64) 0 b ≠ none ∧
    ∃ srt, ∀ sh short errText, ∃ w' out doc, writeJSONOnce env (goJson sh short errText) srt (.std 0) (World.init.run h) = (w', .ok out) ∧ readJson out = some doc ∧ (doc.member [0xFFFD]).length = 2 := by
  refine ⟨twoCounters [0xFE] [0xFF], envAt 2, [0xFE], [0xFF], by decide, ?_, ?_, byKey, fun sh short errText => ?_⟩
  · rw [show gets (World.init.run (twoCounters [0xFE] [0xFF]) : World F64) 0 [0xFE] = some 0 from rfl]; simp
  · rw [show gets (World.init.run (twoCounters [0xFE] [0xFF]) : World F64) 0 [0xFF] = some 1 from rfl]; simp
  · obtain ⟨w', hd⟩ : ∃ w', getAll (envAt 2) (.std 0) (World.init.run (twoCounters [0xFE] [0xFF]) : World F64) = (w', .ok (some [([0xFF], [("count", .int 2)]), ([0xFE], [("count", .int 1)])])) := ⟨_, rfl⟩
    have hm : jsonMarshal (goJson sh short errText) byKey [([0xFF], [("count", .int 2)]), ([0xFE], [("count", .int 1)])] = some (bytes "{\"\\ufffd\":{\"count\":1},\"\\ufffd\":{\"count\":2}}") := by
      cases short <;> rfl
    have hc : memberCount (bytes "{\"\\ufffd\":{\"count\":1},\"\\ufffd\":{\"count\":2}}\n") [0xFFFD] = some 2 := by decide +kernel
    have hj : bytes "{\"\\ufffd\":{\"count\":1},\"\\ufffd\":{\"count\":2}}" ++ [10] = bytes "{\"\\ufffd\":{\"count\":1},\"\\ufffd\":{\"count\":2}}\n" := by decide +kernel
    simp only [writeJSONOnce, marshalJSON, hd, hm, hj]
    unfold memberCount at hc
    rcases hr : readJson (bytes "{\"\\ufffd\":{\"count\":1},\"\\ufffd\":{\"count\":2}}\n") with _ | doc
    · rw [hr] at hc; simp at hc
    · rw [hr] at hc
      exact ⟨w', _, doc, rfl, hr, by simpa using hc⟩

-- A registry whose names could be taken for JSON: counters under `a":1,"b` and `é`. A reader finds both.
example (sh : Shortest) (short : Bool) (errText : Nat → Str) : ∃ w' out doc one two,
    writeJSONOnce (envAt 2) (goJson sh short errText) byKey (.prefixed (.std 0) [112]) (World.init.run (twoCounters (bytes "a\":1,\"b") (bytes "é"))) = (w', .ok out) ∧ readJson out = some doc ∧
    doc.member ("a\":1,\"b".toList.map Char.toNat) = [one] ∧ one.member ("count".toList.map Char.toNat) = [.num 1] ∧ doc.member [0xE9] = [two] ∧ two.member ("count".toList.map Char.toNat) = [.num 2] := by
  obtain ⟨x, hx⟩ : ∃ x, (World.init.run (twoCounters (bytes "a\":1,\"b") (bytes "é")) : World F64).objs 0 = some (.counter x) := ⟨_, rfl⟩
  obtain ⟨y, hy⟩ : ∃ y, (World.init.run (twoCounters (bytes "a\":1,\"b") (bytes "é")) : World F64).objs 1 = some (.counter y) := ⟨_, rfl⟩
  obtain ⟨w', hd⟩ : ∃ w', getAll (envAt 2) (.prefixed (.std 0) [112]) (World.init.run (twoCounters (bytes "a\":1,\"b") (bytes "é")) : World F64) =
      (w', .ok (some [(bytes "é", [("count", .int 2)]), (bytes "a\":1,\"b", [("count", .int 1)])])) := ⟨_, rfl⟩
  have e1 : utf8Text ("a\":1,\"b".toList.map Char.toNat) = bytes "a\":1,\"b" := by decide +kernel
  have e2 : utf8Text [0xE9] = bytes "é" := by decide +kernel
  have h1 : gets (World.init.run (twoCounters (bytes "a\":1,\"b") (bytes "é")) : World F64) 0 (bytes "a\":1,\"b") = some 0 := rfl
  have h2 : gets (World.init.run (twoCounters (bytes "a\":1,\"b") (bytes "é")) : World F64) 0 (bytes "é") = some 1 := rfl
  have v1 : ∀ v, Holds (World.init.run (twoCounters (bytes "a\":1,\"b") (bytes "é")) : World F64) (envAt 2) 0 .count v → v = .int 1 := fun v hv => hv.2 (by simp)
  have v2 : ∀ v, Holds (World.init.run (twoCounters (bytes "a\":1,\"b") (bytes "é")) : World F64) (envAt 2) 1 .count v → v = .int 2 := fun v hv => hv.2 (by simp)
  obtain ⟨out, hm⟩ : ∃ out, jsonMarshal (goJson sh short errText) byKey [(bytes "é", [("count", .int 2)]), (bytes "a\":1,\"b", [("count", .int 1)])] = some out := ⟨_, rfl⟩
  have hn : ∀ name, gets (World.init.run (twoCounters (bytes "a\":1,\"b") (bytes "é")) : World F64) 0 name ≠ none → name = bytes "é" ∨ name = bytes "a\":1,\"b" := by
    intro name hne
    obtain ⟨r, hr⟩ := Option.ne_none_iff_exists'.1 hne
    rw [gets_eq] at hr
    have := lookup_some_mem hr
    have e : (World.init.run (twoCounters (bytes "a\":1,\"b") (bytes "é")) : World F64).regs 0 = [(bytes "é", 1), (bytes "a\":1,\"b", 0)] := rfl
    rw [e] at this
    simp at this
    tauto
  have hw : writeJSONOnce (envAt 2) (goJson sh short errText) byKey (.prefixed (.std 0) [112]) (World.init.run (twoCounters (bytes "a\":1,\"b") (bytes "é"))) = (w', .ok (out ++ [10])) := by
    simp only [writeJSONOnce, marshalJSON, hd, hm]
  obtain ⟨doc, hr, hl⟩ := C90_lookup _ _ sh short errText byKey (.prefixed (.std 0) [112]) 0 rfl w' _ hw (by simp) fun name hne => by
    rcases hn name hne with rfl | rfl
    · exact ⟨_, by decide +kernel, e2.symm⟩
    · exact ⟨_, by decide +kernel, e1.symm⟩
  obtain ⟨one, g1, g2⟩ := (hl ("a\":1,\"b".toList.map Char.toNat) (by decide +kernel)).2 0 _ (by rw [e1]; exact h1) hx
  obtain ⟨two, g3, g4⟩ := (hl [0xE9] (by decide)).2 1 _ (by rw [e2]; exact h2) hy
  obtain ⟨v, j, k1, k2, k3⟩ := g2 ("count", .count) (by simp [fieldsOf])
  obtain ⟨v', j', k4, k5, k6⟩ := g4 ("count", .count) (by simp [fieldsOf])
  rw [v1 v k2] at k3
  rw [v2 v' k5] at k6
  have q1 : j = .num 1 := k3
  have q2 : j' = .num 2 := k6
  subst q1 q2
  exact ⟨w', _, doc, one, two, hw, hr, g1, k1, g3, k4⟩

end GoMetrics
