import Verif.Spec.StatHat
import Verif.Props.Export

/-! Lemmas for C120. -/

set_option linter.unusedSectionVars false

namespace GoMetrics.StatHat
open Spec

variable {F : Type} [GoFloat F] [GoSqrt F] [GoExp F]

theorem total_append (stat key : Str) (a b : List (Event F)) : statTotal stat key (a ++ b) = statTotal stat key a + statTotal stat key b := by
  simp only [statTotal, List.map_append, List.sum_append]

theorem total_cons (stat key : Str) (e : Event F) (b : List (Event F)) : statTotal stat key (e :: b) = statTotal stat key [e] + statTotal stat key b :=
  total_append stat key [e] b

theorem total_values {name : Str} {val : Call F → GoMetrics.Field F} {ps : List F} {stat key : Str} {body : List (Stmt F)} {evs : List (Event F)}
    (hf : List.Forall₂ (fun s e => s.den name val ps = .ok e) body evs) (hb : ∀ s ∈ body, ∃ a b c, s = Stmt.postValue a b c) : statTotal stat key evs = 0 := by
  induction hf with
  | nil => rfl
  | @cons s e body evs h _ ih =>
    rw [total_cons, ih fun s hs => hb s (List.mem_cons_of_mem _ hs), add_zero]
    obtain ⟨a, b, c, rfl⟩ := hb s (by simp)
    simp only [Stmt.den] at h
    split at h
    · cases h; rfl
    · cases h

theorem observe_count {w : World F} {env : Env F} {r : Ref} {o : Obj F} (ho : w.objs r = some o) (hh : isHealth o = false) {n : Int64} (h : Holds w env r .count (.int n)) : countOf w env r = n.toInt := by
  have h1 := h.2 (by simp)
  have e : checked env w r = w := by
    unfold checked
    rw [ho]
    cases o <;> first | rfl | cases hh
  rw [e] at h1
  unfold countOf
  generalize observe w env r .count = x at h1 ⊢
  rcases x with p | x
  · cases h1
  · cases x <;> simp only [shows] at h1
    · cases h1; rfl
    · cases h1
    · cases h1
    · rename_i y
      cases y <;> simp [shows] at h1

/-- The posts for one metric. -/
theorem block_total {w : World F} {env : Env F} {name : Str} {r : Ref} {o : Obj F} {evs : List (Event F)} {c : Case F} {key stat : Str} (ho : w.objs r = some o) (hc : stathatSwitch key o = some c)
    (h : CaseOut w env name r o c evs) : statTotal stat key evs = if counterStat name o = some stat then countOf w env r else 0 := by
  obtain ⟨val, ps, hv, -, hf⟩ := h
  have head : ∀ {s : String} {rest : List (Stmt F)}, readable o .count = true → (∃ n, val .count = .int n) → isHealth o = false → counterStat name o = some (name ++ bytes s) → (∀ s ∈ rest, ∃ a b c, s = Stmt.postValue a b c) →
      List.Forall₂ (fun s e => s.den name val ps = .ok e) (.postCount s key (.int (.get .count)) :: rest) evs →
      statTotal stat key evs = if counterStat name o = some stat then countOf w env r else 0 := by
    intro s rest hr ⟨n, hn⟩ hh hs hb hf
    cases hf with
    | cons h1 h2 =>
      rw [total_cons, total_values h2 hb, add_zero, hs]
      have h3 := (hv .count hr).1
      rw [hn] at h3
      rw [observe_count ho hh h3]
      simp only [Stmt.den, Expr.den, hn] at h1
      cases h1
      simp [statTotal]
  cases o with
  | counter x =>
    simp only [stathatSwitch, Option.some.injEq] at hc
    subst hc
    exact head rfl (hv .count rfl).2 rfl (by simp [counterStat, bytes]) (by simp) hf
  | gauge x =>
    simp only [stathatSwitch, Option.some.injEq] at hc
    subst hc
    rw [total_values hf (by simp)]; rfl
  | gaugeF x =>
    simp only [stathatSwitch, Option.some.injEq] at hc
    subst hc
    rw [total_values hf (by simp)]; rfl
  | hist x =>
    simp only [stathatSwitch, Option.some.injEq] at hc
    subst hc
    exact head rfl (hv .count rfl).2 rfl rfl (by simp) hf
  | meter x =>
    simp only [stathatSwitch, Option.some.injEq] at hc
    subst hc
    exact head rfl (hv .count rfl).2 rfl rfl (by simp) hf
  | timer x =>
    simp only [stathatSwitch, Option.some.injEq] at hc
    subst hc
    exact head rfl (hv .count rfl).2 rfl rfl (by simp) hf
  | health x => simp [stathatSwitch] at hc
  | sample x => simp [stathatSwitch] at hc
  | ewma x => simp [stathatSwitch] at hc

theorem none_total {name : Str} {o : Obj F} {key stat : Str} (hc : stathatSwitch key o = none) : counterStat name o ≠ some stat := by
  cases o <;> simp [stathatSwitch] at hc <;> simp [counterStat]

/-- The contribution of an entry. -/
noncomputable def share (w : World F) (env : Env F) (stat : Str) (e : Str × Ref) : Int :=
  match w.objs e.2 with
  | some o => if counterStat e.1 o = some stat then countOf w env e.2 else 0
  | none => 0

theorem sum_single {l : List (Str × Ref)} {f : Str × Ref → Int} {x : Str × Ref} (hn : (l.map Prod.fst).Nodup) (hx : x ∈ l) (h : ∀ y ∈ l, y ≠ x → f y = 0) : (l.map f).sum = f x := by
  induction l with
  | nil => cases hx
  | cons y l ih =>
    rw [List.map_cons, List.sum_cons]
    simp only [List.map_cons, List.nodup_cons] at hn
    rcases List.mem_cons.1 hx with rfl | hx
    · have : (l.map f).sum = 0 := List.sum_eq_zero fun z hz => by
        obtain ⟨y, hy, rfl⟩ := List.mem_map.1 hz
        exact h y (List.mem_cons_of_mem _ hy) fun e => hn.1 (e ▸ List.mem_map_of_mem hy)
      rw [this, add_zero]
    · rw [ih hn.2 hx fun z hz => h z (List.mem_cons_of_mem _ hz), h y (by simp) fun e => hn.1 (e ▸ List.mem_map_of_mem hx), zero_add]

theorem round {w w' : World F} (hw : w.Ok) {env : Env F} {key : Str} {g : Reg} {id : Nat} (hb : base g = some id) {out : List (Event F)}
    (h : stathatOnce env key g w = ((w', out), .ok ())) (stat : Str) :
    w'.Ok ∧ (∀ r, Feeds w g stat r → (∀ r', Feeds w g stat r' → r' = r) → statTotal stat key out = countOf w env r) ∧ ((∀ r, ¬ Feeds w g stat r) → statTotal stat key out = 0) := by
  rw [stathatOnce, each, eachList_base env g id hb] at h
  have hk := eachList_nodup env g id hw
  have hm := eachList_mem env g id hw
  generalize (env.order (w.regs id)).filter (fun e => (prefixes g).flatten.isPrefixOf e.1) = l at h hk hm
  have hl : ∀ e ∈ l, ∃ o, w.objs e.2 = some o := fun e he => (objs_of hw ((hm e.1 e.2).1 he).1).imp fun o ho => ho.1
  obtain ⟨h1, blocks, h2, h3⟩ := visit_export (good_stathat key) l hl (Seen.refl env hw) h
  rw [List.nil_append] at h2
  subst h2
  have ht : statTotal stat key blocks.flatten = (l.map (share w env stat)).sum := by
    clear h hk hm hl
    induction h3 with
    | nil => rfl
    | @cons e evs l blocks h _ ih =>
      rw [List.flatten_cons, total_append, ih, List.map_cons, List.sum_cons]
      congr 1
      obtain ⟨o, ho, ⟨hc, rfl⟩ | ⟨c, hc, hout⟩⟩ := h
      · simp only [share, ho, if_neg (none_total hc)]; rfl
      · simp only [share, ho]; exact block_total ho hc hout
  refine ⟨h1.ok, fun r hr hu => ?_, fun hn => ?_⟩
  · obtain ⟨id', name, o, hb', hg, hp, ho, hs⟩ := hr
    rw [hb] at hb'
    cases hb'
    rw [ht, sum_single hk ((hm name r).2 ⟨hg, hp⟩)]
    · simp only [share, ho, if_pos hs]
    · rintro ⟨n, q⟩ hy hne
      obtain ⟨o', ho'⟩ := hl _ hy
      simp only at ho'
      simp only [share, ho']
      refine if_neg fun hs' => hne ?_
      obtain ⟨hg', hp'⟩ := (hm n q).1 hy
      obtain rfl := hu q ⟨id, n, o', hb, hg', hp', ho', hs'⟩
      rw [ho] at ho'
      cases ho'
      congr 1
      rw [← hs'] at hs
      cases o <;> simp_all [counterStat]
  · rw [ht]
    refine List.sum_eq_zero fun z hz => ?_
    obtain ⟨⟨n, q⟩, hy, rfl⟩ := List.mem_map.1 hz
    obtain ⟨o', ho'⟩ := hl _ hy
    simp only at ho'
    simp only [share, ho']
    obtain ⟨hg', hp'⟩ := (hm n q).1 hy
    exact if_neg fun hs' => hn q ⟨id, n, o', hb, hg', hp', ho', hs'⟩

theorem total_run {key : Str} {g : Reg} {id : Nat} (hb : base g = some id) (stat : Str) (r : Ref) (rounds : List (ShRound F)) {w w' : World F} (hw : w.Ok) {out out' : List (Event F)}
    (h : stathatRun key g rounds w out = ((w', out'), none)) (hr : ∀ x ∈ reports key g rounds w, (Feeds x.1 g stat r ∧ ∀ r', Feeds x.1 g stat r' → r' = r)) :
    statTotal stat key out' = statTotal stat key out + ((reports key g rounds w).map fun x => countOf x.1 x.2 r).sum := by
  induction rounds generalizing w out with
  | nil => cases h; simp [reports]
  | cons x xs ih =>
    have hw1 : (w.run x.before).Ok := (hw.run _).1
    rcases hx : stathatOnce x.env key g (w.run x.before) with ⟨⟨w1, new⟩, p | u⟩
    · simp only [stathatRun, hx] at h
      cases h
    · simp only [stathatRun, hx] at h
      obtain ⟨h1, h2, -⟩ := round hw1 hb hx stat
      simp only [reports, hx, List.mem_cons, forall_eq_or_imp] at hr
      rw [ih h1 h hr.2, total_append, h2 r hr.1.1 hr.1.2]
      simp only [reports, hx, List.map_cons, List.sum_cons]
      ring

theorem again_sum (p : Int) (l : List Int) : countedAgain p l = l.sum - p * l.length := by
  induction l generalizing p with
  | nil => simp [countedAgain]
  | cons c l ih => rw [countedAgain, ih, List.sum_cons, List.length_cons]; push_cast; ring

end GoMetrics.StatHat
