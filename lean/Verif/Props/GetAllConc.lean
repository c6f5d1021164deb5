import Verif.Lemmas.GetAllConc
import Verif.Props.GetAll
import Verif.Props.JsonRead
import Mathlib.Tactic.IntervalCases

/-! Property theorems C101: `GetAll` and JSON while other goroutines use the metrics and the registry. -/

set_option linter.unusedSimpArgs false
set_option linter.unusedSectionVars false

namespace GoMetrics
open Spec

variable {F : Type} [GoFloat F] [GoSqrt F] [GoExp F]

private theorem getAllLive_base (s : Nat → Turn F) (g : Reg) (id : Nat) (hb : base g = some id) (h : List (Env F × Op F)) : getAllLive s g h = getAllLive s (.std id) h := by
  induction g with
  | std i => simp [base] at hb; rw [hb]
  | prefixed u p ih => exact ih hb
  | foreign => simp [base] at hb

section live
variable (s : Nat → Turn F) (g : Reg) (id : Nat) (hb : base g = some id) (h : List (Env F × Op F)) (st : LiveState F)
  (hown : ∀ name r, gets (after (h ++ (s 0).others) : World F) id name = some r → ownsValues (after (h ++ (s 0).others)) r)
include hb

/-- C101: other goroutines may use the metrics and the registry in any way during `GetAll`. The result has one entry for each metric that was in the registry at one moment (when the list was copied), also if `g` is a prefixed registry. Each
entry has exactly the fields of its metric, with the values that they had together at one moment during the call: the moment of the call by which `GetAll` got at them (for a healthcheck: one call of `Error()` after `Check()`). -/
theorem C101_values (data : Data F) (hown : ∀ name r, gets (after (h ++ (s 0).others) : World F) id name = some r → ownsValues (after (h ++ (s 0).others)) r)
    (hd : getAllLive s g h = (st, .ok (some data))) :
    ∃ blocks, ExportedLive (h ++ (s 0).others) st.log id [] (fun _ => false) data EntryOf blocks := by
  rw [getAllLive_base s g id hb, getAllLive] at hd
  rcases he : eachLive s (.std id) (fun l => l) (getAllCallbackLive s) [] h with ⟨⟨st1, d⟩, _ | u⟩ <;> rw [he] at hd
  · simp at hd
  · simp only [Prod.mk.injEq, Except.ok.injEq, Option.some.injEq] at hd
    obtain ⟨rfl, rfl⟩ := hd
    obtain ⟨blocks, h1, -⟩ := each_blocks (id := id) rfl (fun _ => .rfl) grows_getAll blockwise_getAll hown he
    exact ⟨blocks, h1⟩

/-- C101: `GetAll` panics only if one of the calls that it makes panics, or if the error of a healthcheck that it has just read vanishes before it reads it again: others have declared it healthy in between. -/
theorem C101_panics (p : Panic) (hown : ∀ name r, gets (after (h ++ (s 0).others) : World F) id name = some r → ownsValues (after (h ++ (s 0).others)) r)
    (hd : getAllLive s g h = (st, .error p)) :
    CallPanics (h ++ (s 0).others) st.log p ∨ p = .nilDeref ∧ ∃ name r, gets (after (h ++ (s 0).others) : World F) id name = some r ∧ ErrorVanishes (h ++ (s 0).others) st.log r := by
  have hw := after_ok (h ++ (s 0).others)
  rw [getAllLive_base s g id hb, getAllLive] at hd
  rcases he : eachLive s (.std id) (fun l => l) (getAllCallbackLive s) [] h with ⟨⟨st1, d⟩, q | u⟩ <;> rw [he] at hd
  · simp only [Prod.mk.injEq, Except.error.injEq] at hd
    obtain ⟨rfl, rfl⟩ := hd
    rw [eachLive, eachList_base _ (.std id) id rfl] at he
    simp only at he
    have hm := fun name r => eachList_mem (s 0).env (.std id) id hw name r
    set l := ((s 0).env.order ((after (h ++ (s 0).others) : World F).regs id)).filter fun e => (prefixes (.std id)).flatten.isPrefixOf e.1 with hl
    have hobj : ∀ e ∈ l, ∃ o, (after (h ++ (s 0).others) : World F).objs e.2 = some o ∧ o.isMetric = true := fun e hel => objs_of hw ((hm e.1 e.2).1 hel).1
    rcases visit_panic l (st := ⟨h ++ (s 0).others, 1⟩) hobj (fun e hel p h5 _ => by
      obtain ⟨o, h6, h7⟩ := hobj e hel
      exact owns_le hw (after_le h5) h6 h7 (hown e.1 e.2 ((hm e.1 e.2).1 hel).1)) he with h1 | ⟨h1, e, h2, h3⟩
    · exact .inl h1
    · exact .inr ⟨h1, e.1, e.2, ((hm e.1 e.2).1 h2).1, h3⟩
  · simp at hd

/-- C101: without other goroutines it is the `GetAll` of C56. -/
theorem C101_sequential (env : Env F) :
    let x := getAllLive (fun _ => ⟨[], env⟩) g h
    getAll env g (after h) = (after x.1.log, x.2) := by
  intro x
  have hx : x = getAllLive (fun _ => ⟨[], env⟩) (.std id) h := getAllLive_base _ g id hb h
  rw [getAll_base env g id hb, hx, getAll, getAllLive, each, eachLive, List.append_nil, eachList_base env (.std id) id rfl]
  simp only
  rw [alone_visit (alone_getAll (env := env)) _ ⟨h, 1⟩ []]
  generalize visitLive (getAllCallbackLive fun _ => ⟨[], env⟩) _ (⟨h, 1⟩, []) = y
  rcases y with ⟨⟨st1, d⟩, _ | _⟩ <;> rfl

end live

/-! ### JSON -/

private theorem forall2_exists' {α β : Type} {P : α → β → Prop} {l : List α} (h : ∀ a ∈ l, ∃ b, P a b) : ∃ m, List.Forall₂ P l m := by
  induction l with
  | nil => exact ⟨[], .nil⟩
  | cons a l ih =>
    obtain ⟨b, hb⟩ := h a (by simp)
    obtain ⟨m, hm⟩ := ih fun a ha => h a (by simp [ha])
    exact ⟨b :: m, .cons hb hm⟩

private theorem forall2_eq {α β γ : Type} {P : α → β → Prop} {f : α → γ} {g : β → γ} {l : List α} {m : List β} (h : List.Forall₂ P l m) (hP : ∀ a b, P a b → g b = f a) : m.map g = l.map f := by
  induction h with
  | nil => rfl
  | cons h1 _ ih => simp [hP _ _ h1, ih]

private theorem forall2_in {α β : Type} {P : α → β → Prop} {l : List α} {m : List β} (h : List.Forall₂ P l m) {b : β} (hb : b ∈ m) : ∃ a ∈ l, P a b := by
  induction h with
  | nil => simp at hb
  | cons h1 _ ih =>
    rcases List.mem_cons.1 hb with rfl | hb
    · exact ⟨_, by simp, h1⟩
    · obtain ⟨a, ha, hp⟩ := ih hb
      exact ⟨a, by simp [ha], hp⟩

/-- The inner objects. -/
private theorem fields_json (sh : Shortest) (short : Bool) (errText : Nat → Str) (srt : KeySorter) (vs : List (String × GoMetrics.Field F64)) (hn : ∀ kf ∈ vs, representable kf.2) :
    ∃ js : List (Str × Str × Json), jsonMap (goJson sh short errText) srt (jsonValue (goJson sh short errText)) (vs.map fun x => (bytes x.1, x.2)) = some (jsonObject (jsonQuote short) (js.map fun m => (m.1, m.2.1))) ∧
      (∀ x ∈ js, ReadAs x.2.1 x.2.2) ∧ ∃ fs', fs'.Perm (js.map fun m => (m.1, m.2.2)) ∧ List.Forall₂ (fun (kf : String × GoMetrics.Field F64) (f : Str × Json) => f.1 = bytes kf.1 ∧ Denotes errText kf.2 f.2) vs fs' := by
  obtain ⟨js', h1⟩ := forall2_exists' (l := vs) (P := fun kf (m : Str × Str × Json) => m.1 = bytes kf.1 ∧ m.2.1 = jsonText (goJson sh short errText) kf.2 ∧ ReadAs m.2.1 m.2.2 ∧ Denotes errText kf.2 m.2.2) (by
    rintro ⟨k, v⟩ hk
    obtain ⟨j, k1, k2⟩ := jsonField_read sh short errText v (hn _ hk)
    exact ⟨(bytes k, _, j), rfl, rfl, k1, k2⟩)
  have h2 : List.Forall₂ (fun (f : Str × GoMetrics.Field F64) (m : Str × Str × Json) => m.1 = f.1 ∧ m.2.1 = jsonText (goJson sh short errText) f.2) (vs.map fun x => (bytes x.1, x.2)) js' := by
    rw [List.forall₂_map_left_iff]
    exact h1.imp fun a b hab => ⟨hab.1, hab.2.1⟩
  obtain ⟨js, h3, h4⟩ := List.perm_comp_forall₂ (srt.perm (vs.map fun x => (bytes x.1, x.2))) h2
  refine ⟨js, ?_, fun x hx => ?_, js'.map fun m => (m.1, m.2.2), (h4.map _).symm, ?_⟩
  · rw [jsonMap_some (goJson sh short errText) srt _ (jsonText (goJson sh short errText)) _ fun f hf => jsonValue_some _ _ (by obtain ⟨kf, hk, rfl⟩ := List.mem_map.1 hf; exact hn kf hk)]
    congr 1
    show jsonObject (jsonQuote short) _ = _
    congr 1
    exact (forall2_eq h3 fun a b hab => by rw [hab.1, hab.2]).symm
  · obtain ⟨kf, -, h5⟩ := forall2_in h1 (h4.mem_iff.1 hx)
    exact h5.2.2.1
  · rw [List.forall₂_map_right_iff]
    exact h1.imp fun a b hab => ⟨hab.1, hab.2.2.2⟩

private theorem data_json (sh : Shortest) (short : Bool) (errText : Nat → Str) (srt : KeySorter) (data : Data F64) :
    (jsonMarshal (goJson sh short errText) srt data = none ∧ ∃ name vs k v, (name, vs) ∈ data ∧ (k, v) ∈ vs ∧ ¬ representable v) ∨
    ∃ text, jsonMarshal (goJson sh short errText) srt data = some text ∧ JsonHas errText data (text ++ [10]) := by
  by_cases hn : ∀ x ∈ data, ∀ kf ∈ x.2, representable kf.2
  · right
    obtain ⟨Js', h1⟩ := forall2_exists' (l := data) (P := fun x (J : Str × List (Str × Str × Json)) => J.1 = x.1 ∧
        jsonMap (goJson sh short errText) srt (jsonValue (goJson sh short errText)) (x.2.map fun x => (bytes x.1, x.2)) = some (jsonObject (jsonQuote short) (J.2.map fun m => (m.1, m.2.1))) ∧
        (∀ x ∈ J.2, ReadAs x.2.1 x.2.2) ∧ ∃ fs', fs'.Perm (J.2.map fun m => (m.1, m.2.2)) ∧ List.Forall₂ (fun (kf : String × GoMetrics.Field F64) (f : Str × Json) => f.1 = bytes kf.1 ∧ Denotes errText kf.2 f.2) x.2 fs') (by
      rintro ⟨name, vs⟩ hx
      obtain ⟨js, k1, k2, k3⟩ := fields_json sh short errText srt vs (hn _ hx)
      exact ⟨(name, js), rfl, k1, k2, k3⟩)
    have h2 : List.Forall₂ (fun (x : Str × List (String × GoMetrics.Field F64)) (J : Str × List (Str × Str × Json)) => J.1 = x.1 ∧
        jsonMap (goJson sh short errText) srt (jsonValue (goJson sh short errText)) (x.2.map fun x => (bytes x.1, x.2)) = some (jsonObject (jsonQuote short) (J.2.map fun m => (m.1, m.2.1)))) data Js' :=
      h1.imp fun a b hab => ⟨hab.1, hab.2.1⟩
    obtain ⟨Js, h3, h4⟩ := List.perm_comp_forall₂ (srt.perm data) h2
    have hread : ∀ x ∈ Js.map (fun J => (J.1, jsonObject (jsonQuote short) (J.2.map fun m => (m.1, m.2.1)), Json.obj (J.2.map fun m => (chars m.1, m.2.2)))), ReadAs x.2.1 x.2.2 := by
      intro x hx
      obtain ⟨J, hJ, rfl⟩ := List.mem_map.1 hx
      obtain ⟨kf, -, h5⟩ := forall2_in h1 (h4.mem_iff.1 hJ)
      exact readAs_obj short J.2 h5.2.2.1
    have hm := jsonMap_some (goJson sh short errText) srt (fun vs => jsonMap (goJson sh short errText) srt (jsonValue (goJson sh short errText)) (vs.map fun x => (bytes x.1, x.2)))
      (fun vs => (jsonMap (goJson sh short errText) srt (jsonValue (goJson sh short errText)) (vs.map fun x => (bytes x.1, x.2))).getD []) data (fun x hx => by
        obtain ⟨js, k1, -, -⟩ := fields_json sh short errText srt x.2 (hn _ hx)
        simp only [k1, Option.getD_some])
    refine ⟨_, hm, Js.map fun J => (J.1, J.2.map fun m => (m.1, m.2.2)), ?_, Js'.map fun J => (J.1, J.2.map fun m => (m.1, m.2.2)), (h4.map _).symm, ?_⟩
    · have e : (srt.sort data).map (fun m => (m.1, (jsonMap (goJson sh short errText) srt (jsonValue (goJson sh short errText)) (m.2.map fun x => (bytes x.1, x.2))).getD [])) =
          (Js.map (fun J => (J.1, jsonObject (jsonQuote short) (J.2.map fun m => (m.1, m.2.1)), Json.obj (J.2.map fun m => (chars m.1, m.2.2))))).map fun m => (m.1, m.2.1) := by
        rw [List.map_map]
        exact (forall2_eq h3 fun a b hab => by simp only [Function.comp_def, hab.1, hab.2, Option.getD_some]).symm
      rw [e]
      have := (readJson_of (readAs_obj short _ hread)).2
      rw [show (goJson sh short errText).quote = jsonQuote short from rfl, this]
      simp only [List.map_map, Function.comp_def]
    · rw [List.forall₂_map_right_iff]
      exact h1.imp fun a b hab => ⟨hab.1, hab.2.2.2⟩
  · left
    push Not at hn
    obtain ⟨x, hx, kf, hk, hr⟩ := hn
    refine ⟨jsonMap_none _ _ _ _ ⟨x, hx, ?_⟩, x.1, x.2, kf.1, kf.2, hx, hk, hr⟩
    exact jsonMap_none _ _ _ _ ⟨(bytes kf.1, kf.2), List.mem_map.2 ⟨kf, hk, rfl⟩, jsonValue_none _ _ hr⟩

/-- C101: whatever others do during `WriteJSONOnce`, what it writes is the result of one `GetAll` (see `C101_values`), as a JSON text in which a parser finds exactly its entries, fields and values; or nothing, because some value in the
result is NaN or infinite. -/
theorem C101_json (s : Nat → Turn F64) (g : Reg) (id : Nat) (hb : base g = some id) (h : List (Env F64 × Op F64)) (st : LiveState F64) (sh : Shortest) (short : Bool) (errText : Nat → Str) (srt : KeySorter) (out : Str)
    (hw : writeJSONOnceLive s (goJson sh short errText) srt g h = (st, .ok out)) :
    ∃ data, getAllLive s g h = (st, .ok (some data)) ∧
      ((out = [] ∧ ∃ name vs k v, (name, vs) ∈ data ∧ (k, v) ∈ vs ∧ ¬ representable v) ∨ JsonHas errText data out) := by
  have hs : ∀ st', getAllLive s g h ≠ (st', .ok none) := fun st' => by
    rw [getAllLive_base s g id hb, getAllLive]
    rcases eachLive s (.std id) (fun l => l) (getAllCallbackLive s) [] h with ⟨⟨w1, d⟩, _ | _⟩ <;> simp
  simp only [writeJSONOnceLive, marshalJSONLive] at hw
  rcases hx : getAllLive s g h with ⟨st1, p | _ | data⟩ <;> rw [hx] at hw
  · simp at hw
  · exact absurd hx (hs _)
  · simp only at hw
    rcases data_json sh short errText srt data with ⟨h1, h2⟩ | ⟨text, h1, h2⟩ <;> rw [h1] at hw <;> simp only [Prod.mk.injEq, Except.ok.injEq] at hw <;> obtain ⟨rfl, rfl⟩ := hw
    · exact ⟨data, rfl, .inl ⟨rfl, h2⟩⟩
    · exact ⟨data, rfl, .inr h2⟩

/-! ### Examples and limits -/

-- Other goroutines increment the counter, and update the histogram and the timer, before each call of `GetAll`.
private def busy : Nat → Turn F64 := fun n => ⟨[(envAt 2, .call 0 (.inc 1)), (envAt 2, .call 5 (.update 7)), (envAt 2, .call 10 (.updateD 3))], envAt (3 + n)⟩

private theorem busy_owns : ∀ name r, gets (after (exportHistory ++ (busy 0).others) : World F64) 0 name = some r → ownsValues (after (exportHistory ++ (busy 0).others) : World F64) r := by
  intro name r hr
  rw [gets_eq] at hr
  have h1 := lookup_some_mem hr
  have h2 : ∀ e ∈ (after (exportHistory ++ (busy 0).others) : World F64).regs 0, slice (after (exportHistory ++ (busy 0).others) : World F64) e.2 = none := by decide +kernel
  intro a ha
  rw [h2 _ h1] at ha
  simp at ha

private def someData : Res (Option (Data F64)) → Bool
  | .ok (some _) => true
  | _ => false
private theorem someData_eq {α : Type _} {x : α × Res (Option (Data F64))} (h : someData x.2 = true) : ∃ d, x = (x.1, .ok (some d)) := by
  rcases x with ⟨a, _ | _ | d⟩
  · simp [someData] at h
  · simp [someData] at h
  · exact ⟨d, rfl⟩

private theorem busy_ok : someData (getAllLive busy (.prefixed (.std 0) [104]) exportHistory).2 = true := by decide +kernel
example : ∃ data blocks, ExportedLive (exportHistory ++ (busy 0).others) (getAllLive busy (.prefixed (.std 0) [104]) exportHistory).1.log 0 [] (fun _ => false) data EntryOf blocks := by
  obtain ⟨d, hd⟩ := someData_eq busy_ok
  obtain ⟨blocks, h1⟩ := C101_values busy (.prefixed (.std 0) [104]) 0 rfl exportHistory _ d busy_owns hd
  exact ⟨d, blocks, h1⟩
-- The JSON text of the counter alone, incremented meanwhile.
private def oneCounter : List (Env F64 × Op F64) := [(envAt 0, .new .counter), (envAt 0, .reg (.std 0) (.register [97] (.obj 0)))]
private def counting : Nat → Turn F64 := fun n => ⟨if n = 1 then [(envAt 1, .call 0 (.inc 7))] else [], envAt 1⟩
example (sh : Shortest) (short : Bool) (errText : Nat → Str) (srt : KeySorter) : ∃ st out, writeJSONOnceLive counting (goJson sh short errText) srt (.std 0) oneCounter = (st, .ok out) ∧ JsonHas errText [([97], [("count", .int 7)])] out := by
  obtain ⟨st, hd⟩ : ∃ st, getAllLive counting (.std 0) oneCounter = (st, .ok (some [([97], [("count", .int 7)])])) := ⟨_, rfl⟩
  rcases data_json sh short errText srt [([97], [("count", .int 7)])] with ⟨-, name, vs, k, v, h1, h2, h3⟩ | ⟨text, h1, h2⟩
  · simp only [List.mem_singleton, Prod.mk.injEq] at h1
    obtain ⟨-, rfl⟩ := h1
    simp only [List.mem_singleton, Prod.mk.injEq] at h2
    obtain ⟨-, rfl⟩ := h2
    exact absurd trivial h3
  · have hw : writeJSONOnceLive counting (goJson sh short errText) srt (.std 0) oneCounter = (st, .ok (text ++ [10])) := by
      simp only [writeJSONOnceLive, marshalJSONLive, hd, h1]
    obtain ⟨data, h3, -⟩ := C101_json counting (.std 0) 0 rfl oneCounter st sh short errText srt _ hw
    exact ⟨st, _, hw, h2⟩

-- A healthcheck whose function reports an error; another goroutine declares it healthy after `GetAll` has read its error for the first time.
private def oneHealth : List (Env F64 × Op F64) := [(envAt 0, .new (.health 0)), (envAt 0, .reg (.std 0) (.register [97] (.obj 0)))]
private def relief : Nat → Turn F64 := fun n => ⟨if n = 3 then [(envAt 1, .call 0 .healthy)] else [], envAt 1⟩

private def isNilDeref : Res (Option (Data F64)) → Bool
  | .error .nilDeref => true
  | _ => false
private theorem relief_nil : isNilDeref (getAllLive relief (.std 0) oneHealth).2 = true := by decide +kernel
private theorem nilDeref_eq {α : Type _} {x : α × Res (Option (Data F64))} (h : isNilDeref x.2 = true) : x = (x.1, .error .nilDeref) := by
  rcases x with ⟨a, p | d⟩
  · cases p <;> simp [isNilDeref] at h; rfl
  · simp [isNilDeref] at h

private def fine {α : Type _} : Res α → Bool
  | .ok _ => true
  | .error _ => false

/-- C101, the limit: `GetAll` can panic though none of the calls that it makes panics. -/
theorem C101_refuted : ∃ (h : List (Env F64 × Op F64)) (s : Nat → Turn F64) (st : LiveState F64), getAllLive s (.std 0) h = (st, .error .nilDeref) ∧
    ∀ past env r c p, past ++ [(env, .call r c)] <+: st.log → observe (after past) env r c ≠ .error p := by
  refine ⟨oneHealth, relief, _, nilDeref_eq relief_nil, fun past env r c p hp he => ?_⟩
  have hlog : (getAllLive relief (.std 0) oneHealth).1.log = oneHealth ++ [(envAt 1, .call 0 .check), (envAt 1, .call 0 .error), (envAt 1, .call 0 .healthy), (envAt 1, .call 0 .error)] := rfl
  rw [hlog] at hp
  have hl := hp.length_le
  obtain ⟨t, ht⟩ := hp
  have ht2 : past = (past ++ [(env, Op.call r c)] ++ t).take past.length := by simp
  have hz : (past ++ [(env, Op.call r c)] ++ t)[past.length]? = some (env, Op.call r c) := by simp
  rw [ht] at ht2 hz
  have hl2 : past.length < 6 := by simpa [oneHealth] using hl
  generalize past.length = n at ht2 hz hl2
  subst ht2
  have h5 : fine (observe (after (List.take n (oneHealth ++ [(envAt 1, .call 0 .check), (envAt 1, .call 0 .error), (envAt 1, .call 0 .healthy), (envAt 1, .call 0 .error)]))) env r c) = false := by rw [he]; rfl
  clear he hl ht hlog
  interval_cases n <;> simp [oneHealth] at hz <;> obtain ⟨rfl, rfl, rfl⟩ := hz <;> exact absurd h5 (by decide +kernel)

example := C101_panics relief (.std 0) 0 rfl oneHealth _ .nilDeref (by
  intro name r hr
  rw [gets_eq] at hr
  have h1 := lookup_some_mem hr
  have h2 : ∀ e ∈ (after (oneHealth ++ (relief 0).others) : World F64).regs 0, slice (after (oneHealth ++ (relief 0).others) : World F64) e.2 = none := by decide +kernel
  intro a ha
  rw [h2 _ h1] at ha
  simp at ha) (nilDeref_eq relief_nil)

end GoMetrics
