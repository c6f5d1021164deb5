import Verif.Lemmas.StatHat
import Verif.Spec.StatNames

/-! Lemmas for C123. -/

namespace GoMetrics.StatNames
open GoMetrics Spec

variable {F : Type} [GoFloat F] [GoSqrt F] [GoExp F]

/-- The statistics of one metric. -/
def namesOf (name : Str) (o : Obj F) : List Str := if isNumber o then [name] else (statWords o).map fun word => name ++ 46 :: word

def namesAt (w : World F) (e : Str × Ref) : List Str := match w.objs e.2 with
  | some o => namesOf e.1 o
  | none => []

theorem body_names {name : Str} {val : Call F → GoMetrics.Field F} {ps : List F} {body : List (Stmt F)} {evs : List (Event F)}
    (h : List.Forall₂ (fun s e => s.den name val ps = .ok e) body evs) :
    evs.filterMap postedTo = body.filterMap fun | .postCount s _ _ | .postValue s _ _ => some (name ++ bytes s) | .printf _ _ => none := by
  induction h with
  | nil => rfl
  | @cons s e _ _ h _ ih =>
    cases s <;> simp only [Stmt.den] at h <;> split at h <;> cases h <;> rw [List.filterMap_cons, List.filterMap_cons] <;> simp only [postedTo, ih]

theorem block_names {w : World F} {env : Env F} {name key : Str} {r : Ref} {o : Obj F} {c : Case F} {evs : List (Event F)} (hc : stathatSwitch key o = some c) (h : CaseOut w env name r o c evs) :
    evs.filterMap postedTo = namesOf name o := by
  obtain ⟨val, ps, -, -, hf⟩ := h
  rw [body_names hf]
  cases o <;> simp only [stathatSwitch, Option.some.injEq, reduceCtorEq] at hc <;> subst hc <;>
    simp [namesOf, isNumber, statWords] <;> (try decide)

omit [GoSqrt F] [GoExp F] in
theorem none_names {name key : Str} {o : Obj F} (hc : stathatSwitch key o = none) : namesOf name o = [] := by
  cases o <;> simp [stathatSwitch, namesOf, isNumber, statWords] at hc ⊢

omit [GoFloat F] [GoSqrt F] [GoExp F] in
theorem words_ok (o : Obj F) : (statWords o).Nodup ∧ ∀ word ∈ statWords o, (46 : UInt8) ∉ word := by
  cases o <;> simp only [statWords, List.nodup_nil, List.not_mem_nil, false_imp_iff, implies_true, and_self] <;> decide +kernel

omit [GoFloat F] [GoSqrt F] [GoExp F] in
theorem names_nodup (name : Str) (o : Obj F) : (namesOf name o).Nodup := by
  unfold namesOf
  split
  · simp
  · exact (words_ok o).1.map fun a b h => by simpa using h

/-- Two names followed by a point and a word without points. -/
theorem word_inj {n n' a b : Str} (ha : (46 : UInt8) ∉ a) (hb : (46 : UInt8) ∉ b) (h : n ++ 46 :: a = n' ++ 46 :: b) : n = n' := by
  rcases List.append_eq_append_iff.1 h with ⟨c, hc, hd⟩ | ⟨c, hc, hd⟩
  · cases c with
    | nil => simpa using hc.symm
    | cons x c => simp only [List.cons_append, List.cons.injEq] at hd; exact absurd (by rw [hd.2]; simp) ha
  · cases c with
    | nil => simpa using hc
    | cons x c => simp only [List.cons_append, List.cons.injEq] at hd; exact absurd (by rw [hd.2]; simp) hb

theorem posts {w w' : World F} (hw : w.Ok) {env : Env F} {key : Str} {g : Reg} {id : Nat} (hb : base g = some id) {out : List (Event F)}
    (h : stathatOnce env key g w = ((w', out), .ok ())) :
    ∃ l : List (Str × Ref), (l.map Prod.fst).Nodup ∧ (∀ name r, (name, r) ∈ l ↔ gets w id name = some r ∧ (prefixes g).flatten <+: name) ∧
      out.filterMap postedTo = l.flatMap (namesAt w) := by
  rw [stathatOnce, each, eachList_base env g id hb] at h
  have hk := eachList_nodup env g id hw
  have hm := eachList_mem env g id hw
  generalize (env.order (w.regs id)).filter (fun e => (prefixes g).flatten.isPrefixOf e.1) = l at h hk hm
  have hl : ∀ e ∈ l, ∃ o, w.objs e.2 = some o := fun e he => (objs_of hw ((hm e.1 e.2).1 he).1).imp fun o ho => ho.1
  obtain ⟨-, blocks, h2, h3⟩ := visit_export (good_stathat key) l hl (Seen.refl env hw) h
  rw [List.nil_append] at h2
  subst h2
  refine ⟨l, hk, hm, ?_⟩
  clear h hk hm hl
  induction h3 with
  | nil => rfl
  | @cons e evs l blocks h _ ih =>
    rw [List.flatten_cons, List.filterMap_append, ih, List.flatMap_cons]
    congr 1
    obtain ⟨o, ho, ⟨hc, rfl⟩ | ⟨c, hc, hout⟩⟩ := h
    · simp only [namesAt, ho, none_names hc]; rfl
    · simp only [namesAt, ho]; exact block_names hc hout

end GoMetrics.StatNames
