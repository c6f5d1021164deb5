import Verif.Lemmas.Memory
/-
From the lock discipline to happens-before.
-/
namespace GoMetrics.Mem

theorem HB.lt {tr : Trace} {i j : Nat} (h : HB tr i j) : i < j := by
  induction h with
  | po h _ _ _ => exact h
  | lock h _ _ _ => exact h
  | go h _ _ => exact h
  | msg h _ _ => exact h
  | trans _ _ h1 h2 => omega

theorem take_succ {tr : Trace} {i : Nat} {e : Ev} (h : tr[i]? = some e) : tr.take (i + 1) = tr.take i ++ [e] := by
  rw [List.take_add_one, h]; rfl

theorem mem_take_iff {tr : Trace} {i : Nat} {e : Ev} : e ∈ tr.take i ↔ ∃ j, j < i ∧ tr[j]? = some e := by
  rw [List.mem_iff_getElem?]
  constructor
  · rintro ⟨j, hj⟩
    rw [List.getElem?_take] at hj
    split at hj
    · exact ⟨j, ‹_›, hj⟩
    · simp at hj
  · rintro ⟨j, hj, h⟩
    exact ⟨j, by rw [List.getElem?_take, if_pos hj, h]⟩

/-! ### Locks -/

theorem bal_proj (tr : Trace) (t m w) : bal (proj t tr) m w = holdCount tr t m w := by
  have hc : ∀ a : Act, (proj t tr).count a = tr.count ⟨t, a⟩ := by
    intro a
    induction tr with
    | nil => rfl
    | cons e es ih =>
      rcases e with ⟨u, b⟩
      by_cases hu : u = t
      · subst hu
        have : proj u (⟨u, b⟩ :: es) = b :: proj u es := by simp [proj]
        rw [this, List.count_cons, List.count_cons, ih]
        congr 1
        by_cases hb : b = a <;> simp [hb]
      · have : proj t (⟨u, b⟩ :: es) = proj t es := by simp [proj, hu]
        rw [this, List.count_cons, ih, if_neg (by simp [hu])]; rfl
  rw [bal, holdCount, hc, hc]

theorem holdCount_snoc (tr : Trace) (e : Ev) (t m w) :
    holdCount (tr ++ [e]) t m w = holdCount tr t m w +
      (if e = ⟨t, .acq m w⟩ then 1 else 0) - (if e = ⟨t, .rel m w⟩ then 1 else 0) := by
  simp only [holdCount, List.count_append, List.count_singleton, beq_iff_eq, Nat.cast_add]
  split <;> split <;> simp <;> omega

theorem Holds.mem_tids {tr : Trace} {t m w} (h : Holds tr t m w) : t ∈ tids tr := by
  have : 0 < tr.count ⟨t, .acq m w⟩ := by
    unfold Holds holdCount at h; omega
  exact List.mem_map.2 ⟨_, List.count_pos_iff.1 this, rfl⟩

/-- At most one goroutine holds a mutex exclusively, and then nobody else holds it. -/
theorem exclusion {tr : Trace} (hw : WellFormed tr) : ∀ i t u m w w', Holds (tr.take i) t m w →
    Holds (tr.take i) u m w' → t ≠ u → w = false ∧ w' = false := by
  intro i
  induction i with
  | zero => intro t u m w w' h; simp [Holds, holdCount] at h
  | succ i ih =>
    intro t u m w w' ht hu hne
    rcases he : tr[i]? with _ | e
    · have hs : tr.take (i + 1) = tr.take i := by rw [List.take_add_one, he]; simp
      rw [hs] at ht hu
      exact ih t u m w w' ht hu hne
    · rw [take_succ he] at ht hu
      have hpos := hw i e he
      simp only [Holds, holdCount_snoc] at ht hu
      by_cases h1 : e = ⟨t, .acq m w⟩
      · subst h1
        have hu' : Holds (tr.take i) u m w' := by
          rw [if_neg (by simp [hne])] at hu
          unfold Holds; split at hu <;> omega
        obtain ⟨h3, h4⟩ := hpos.2 u hu'.mem_tids
        cases w' with
        | true => exact absurd hu' h3
        | false =>
          cases w with
          | true => exact absurd hu' (h4 rfl)
          | false => exact ⟨rfl, rfl⟩
      · rw [if_neg h1] at ht
        have ht' : Holds (tr.take i) t m w := by unfold Holds; split at ht <;> omega
        by_cases h2 : e = ⟨u, .acq m w'⟩
        · subst h2
          obtain ⟨h3, h4⟩ := hpos.2 t ht'.mem_tids
          cases w with
          | true => exact absurd ht' h3
          | false =>
            cases w' with
            | true => exact absurd ht' (h4 rfl)
            | false => exact ⟨rfl, rfl⟩
        · rw [if_neg h2] at hu
          have hu' : Holds (tr.take i) u m w' := by unfold Holds; split at hu <;> omega
          exact ih t u m w w' ht' hu' hne

/-- Something that changes between `i` and `j` changes at a definite place. -/
theorem exists_change {P : Nat → Prop} {i j : Nat} (hij : i ≤ j) (hi : ¬ P i) (hj : P j) :
    ∃ a, i ≤ a ∧ a < j ∧ ¬ P a ∧ P (a + 1) := by
  induction j with
  | zero => obtain rfl : i = 0 := by omega
            exact absurd hj hi
  | succ j ih =>
    by_cases h : P j
    · rcases Nat.lt_or_ge j i with h' | h'
      · obtain rfl : i = j + 1 := by omega
        exact absurd hj hi
      · obtain ⟨a, h1, h2, h3, h4⟩ := ih h' h
        exact ⟨a, h1, by omega, h3, h4⟩
    · rcases Nat.lt_or_ge j i with h' | h'
      · obtain rfl : i = j + 1 := by omega
        exact absurd hj hi
      · exact ⟨j, h', by omega, h, hj⟩

theorem acquired {tr : Trace} {a t m w} (h0 : ¬ Holds (tr.take a) t m w) (h1 : Holds (tr.take (a + 1)) t m w) :
    tr[a]? = some ⟨t, .acq m w⟩ := by
  rcases he : tr[a]? with _ | e
  · have hs : tr.take (a + 1) = tr.take a := by rw [List.take_add_one, he]; simp
    rw [hs] at h1; exact absurd h1 h0
  · rw [take_succ he] at h1
    by_cases h : e = ⟨t, .acq m w⟩
    · rw [h]
    · simp only [Holds, holdCount_snoc, if_neg h] at h0 h1
      split at h1 <;> omega

theorem released {tr : Trace} {a t m w} (h0 : Holds (tr.take a) t m w) (h1 : ¬ Holds (tr.take (a + 1)) t m w) :
    tr[a]? = some ⟨t, .rel m w⟩ := by
  rcases he : tr[a]? with _ | e
  · have hs : tr.take (a + 1) = tr.take a := by rw [List.take_add_one, he]; simp
    rw [hs] at h1; exact absurd h0 h1
  · rw [take_succ he] at h1
    by_cases h : e = ⟨t, .rel m w⟩
    · rw [h]
    · simp only [Holds, holdCount_snoc, if_neg h] at h0 h1
      split at h1 <;> omega

/-- Accesses under a mutex of which one holds it exclusively are ordered. -/
theorem HB.of_locks {tr : Trace} (hw : WellFormed tr) {i j : Nat} (hij : i < j) {t u a b m w w'}
    (hi : tr[i]? = some ⟨t, a⟩) (hj : tr[j]? = some ⟨u, b⟩) (ha : ∀ m w, a ≠ .rel m w)
    (ht : Holds (tr.take i) t m w) (hu : Holds (tr.take j) u m w') (hor : w = true ∨ w' = true) :
    HB tr i j := by
  by_cases hne : t = u
  · exact .po hij hi hj hne
  have hnot : ¬ Holds (tr.take i) u m w' := by
    intro h
    obtain ⟨rfl, rfl⟩ := exclusion hw i t u m w w' ht h hne
    simp at hor
  obtain ⟨c, hc1, hc2, hc3, hc4⟩ := exists_change (P := fun k => Holds (tr.take k) u m w') hij.le hnot hu
  have hc := acquired hc3 hc4
  have hpos := (hw c _ hc).2
  simp only at hpos
  have htc : ¬ Holds (tr.take c) t m w := by
    intro h
    obtain ⟨h1, h2⟩ := hpos t h.mem_tids
    cases w with
    | true => exact h1 h
    | false => exact h2 (by simpa using hor) h
  obtain ⟨d, hd1, hd2, hd3, hd4⟩ :=
    exists_change (P := fun k => ¬ Holds (tr.take k) t m w) hc1 (not_not.2 ht) htc
  have hd := released (not_not.1 hd3) hd4
  have hid : i < d := by
    rcases Nat.lt_or_ge i d with h | h
    · exact h
    · obtain rfl : i = d := by omega
      rw [hi] at hd
      simp only [Option.some.injEq, Ev.mk.injEq] at hd
      exact absurd hd.2 (ha _ _)
  exact .trans (.po hid hi hd rfl) (.trans (.lock hd2 hd hc hor) (.po hc2 hc hj rfl))

/-! ### Discipline along an execution -/

theorem proj_take {tr : Trace} {i : Nat} {e : Ev} (h : tr[i]? = some e) :
    ∃ q, proj e.tid tr = proj e.tid (tr.take i) ++ e.act :: q := by
  have hi : i < tr.length := by
    rcases List.getElem?_eq_some_iff.1 h with ⟨h, _⟩; exact h
  refine ⟨proj e.tid (tr.drop (i + 1)), ?_⟩
  have hd : tr = tr.take i ++ e :: tr.drop (i + 1) := by
    have he : tr[i] = e := by
      rcases List.getElem?_eq_some_iff.1 h with ⟨_, h⟩; exact h
    rw [← he, List.getElem_cons_drop, List.take_append_drop]
  conv_lhs => rw [hd]
  simp [proj]

theorem Execution.good {tr : Trace} (hx : Execution tr) {i : Nat} {e : Ev} (h : tr[i]? = some e) :
    Good [] (proj e.tid (tr.take i)) e.act := by
  obtain ⟨p, r, hl, hp⟩ := hx.code e.tid
  obtain ⟨q, hq⟩ := proj_take h
  obtain ⟨s, hs⟩ := hp
  have hd := Disc.of_lang safe_body hl [] trivial
  refine hd.good _ e.act (q ++ s) ?_
  rw [← hs, hq]; simp

theorem Execution.read_held {tr : Trace} (hx : Execution tr) {i t x v} (h : tr[i]? = some ⟨t, .read x v⟩)
    (hp : x.prot = .guarded) : ∃ w, Holds (tr.take i) t x.obj w := by
  have := hx.good h
  simp only [Good, hp, List.not_mem_nil, false_or, bal_proj] at this
  exact this

theorem Execution.write_held {tr : Trace} (hx : Execution tr) {i t x v} (h : tr[i]? = some ⟨t, .write x v⟩)
    (hp : x.prot = .guarded) : Holds (tr.take i) t x.obj true := by
  have := hx.good h
  simp only [Good, hp, List.not_mem_nil, false_or, bal_proj] at this
  exact this

/-! ### Objects are constructed before they are known -/

theorem known_snoc (tr : Trace) (e : Ev) : known (tr ++ [e]) = known.learn (known tr) e := by
  simp [known, List.foldl_append]

theorem new_unique {tr : Trace} (hw : WellFormed tr) {i j : Nat} {t u o rf rf'} (hi : tr[i]? = some ⟨t, .new o rf⟩)
    (hj : tr[j]? = some ⟨u, .new o rf'⟩) : i = j := by
  have key : ∀ {i j : Nat} {t u rf rf'}, i < j → tr[i]? = some ⟨t, .new o rf⟩ → tr[j]? ≠ some ⟨u, .new o rf'⟩ := by
    intro i j t u rf rf' hij hi hj
    have := (hw j _ hj).2
    exact (this _ (mem_take_iff.2 ⟨i, hij, hi⟩)).2 rfl
  rcases Nat.lt_trichotomy i j with h | h | h
  · exact absurd hj (key h hi)
  · exact h
  · exact absurd hi (key h hj)

/-- Reading one of the unprotected pointers happens after all earlier writes to it. -/
def PtrOrdered (tr : Trace) : Prop :=
  ∀ i j t u x v w, x.prot = .pointer → i < j → tr[i]? = some ⟨t, .write x v⟩ → tr[j]? = some ⟨u, .read x w⟩ → HB tr i j

/-- Safe publication: the construction of an object happens before everything that a
goroutine does after it got a pointer to it. -/
theorem Execution.published {tr : Trace} (hx : Execution tr) (hs : PtrOrdered tr) : ∀ i t o, o ∈ known (tr.take i) t →
    ∃ n s rf, n < i ∧ tr[n]? = some ⟨s, .new o rf⟩ ∧
      ∀ j a, i ≤ j → tr[j]? = some ⟨t, a⟩ → HB tr n j := by
  intro i
  induction i using Nat.strong_induction_on with
  | _ i ih =>
    intro t o ho
    rcases i with _ | k
    · simp [known] at ho
    rcases he : tr[k]? with _ | e
    · have hs : tr.take (k + 1) = tr.take k := by rw [List.take_add_one, he]; simp
      rw [hs] at ho
      obtain ⟨n, s, rf, h1, h2, h3⟩ := ih k (by omega) t o ho
      exact ⟨n, s, rf, by omega, h2, fun j a hj => h3 j a (by omega)⟩
    rw [take_succ he, known_snoc] at ho
    have old : o ∈ known (tr.take k) t → ∃ n s rf, n < k + 1 ∧ tr[n]? = some ⟨s, .new o rf⟩ ∧
        ∀ j a, k + 1 ≤ j → tr[j]? = some ⟨t, a⟩ → HB tr n j := by
      intro ho
      obtain ⟨n, s, rf, h1, h2, h3⟩ := ih k (by omega) t o ho
      exact ⟨n, s, rf, by omega, h2, fun j a hj => h3 j a (by omega)⟩
    -- it is enough that the construction happens before the event at `k` of `t`
    have here : e.tid = t → (∃ n s rf, n < k ∧ tr[n]? = some ⟨s, .new o rf⟩ ∧ HB tr n k) →
        ∃ n s rf, n < k + 1 ∧ tr[n]? = some ⟨s, .new o rf⟩ ∧
          ∀ j a, k + 1 ≤ j → tr[j]? = some ⟨t, a⟩ → HB tr n j := by
      rintro ht ⟨n, s, rf, h1, h2, h3⟩
      exact ⟨n, s, rf, by omega, h2, fun j a hj hja => .trans h3 (.po (by omega) he hja ht)⟩
    have hpos := hx.wf k e he
    rcases e with ⟨u, act⟩
    cases act with
    | new p rf =>
      simp only [known.learn] at ho
      split at ho
      · rcases List.mem_cons.1 ho with rfl | ho
        · subst t
          exact ⟨k, u, rf, by omega, he, fun j a hj hja => .po (by omega) he hja rfl⟩
        · exact old ho
      · exact old ho
    | read x v =>
      cases v with
      | none => exact old (by simpa only [known.learn] using ho)
      | some p =>
        simp only [known.learn] at ho
        split at ho
        · rcases List.mem_cons.1 ho with rfl | ho
          · subst t
            refine here rfl ?_
            obtain ⟨d, hd, hst⟩ := hpos.2
            obtain ⟨n, hnk, hn⟩ := mem_take_iff.1 hd
            have hposn := hx.wf n d hn
            rcases d with ⟨s, act⟩
            cases act with
            | new q rf =>
              simp only [Act.stores, Bool.and_eq_true, decide_eq_true_eq] at hst
              obtain ⟨rfl, hmem⟩ := hst
              obtain ⟨n', s', rf', h1, h2, h3⟩ := ih n (by omega) s o
                (hposn.1 o (List.mem_map.2 ⟨_, hmem, rfl⟩))
              obtain ⟨c, s'', rf'', g1, g2, g3⟩ := ih k (by omega) u x.obj
                (hpos.1 x.obj (by simp [Act.uses]))
              obtain rfl := new_unique hx.wf g2 hn
              exact ⟨n', s', rf', by omega, h2, .trans (h3 _ _ le_rfl hn) (g3 k _ le_rfl he)⟩
            | write y v =>
              simp only [Act.stores, Bool.and_eq_true, decide_eq_true_eq] at hst
              obtain ⟨rfl, rfl⟩ := hst
              obtain ⟨n', s', rf', h1, h2, h3⟩ := ih n (by omega) s o (hposn.1 o (by simp [Act.uses]))
              have hg := hx.good hn
              have hp : y.prot = .guarded ∨ y.prot = .pointer := by
                simp only [Good] at hg
                cases hp : y.prot <;> simp [hp] at hg ⊢
              rcases hp with hp | hp
              · obtain ⟨w, hr⟩ := hx.read_held he hp
                have hwr := hx.write_held hn hp
                exact ⟨n', s', rf', by omega, h2,
                  .trans (h3 _ _ le_rfl hn) (.of_locks hx.wf hnk hn he (by simp) hwr hr (.inl rfl))⟩
              · exact ⟨n', s', rf', by omega, h2, .trans (h3 _ _ le_rfl hn) (hs _ _ _ _ _ _ _ hp hnk hn he)⟩
            | read y v => simp [Act.stores] at hst
            | atomic y => simp [Act.stores] at hst
            | acq m w => simp [Act.stores] at hst
            | rel m w => simp [Act.stores] at hst
            | spawn u => simp [Act.stores] at hst
            | send k o => simp [Act.stores] at hst
            | recv k o => simp [Act.stores] at hst
          · exact old ho
        · exact old ho
    | write x v => exact old (by simpa only [known.learn] using ho)
    | atomic x => exact old (by simpa only [known.learn] using ho)
    | acq m w => exact old (by simpa only [known.learn] using ho)
    | rel m w => exact old (by simpa only [known.learn] using ho)
    | send c p => exact old (by simpa only [known.learn] using ho)
    | recv c p =>
      simp only [known.learn] at ho
      split at ho
      · rcases List.mem_cons.1 ho with rfl | ho
        · subst t
          refine here rfl ?_
          obtain ⟨d, hd, hst⟩ := hpos.2
          obtain ⟨n, hnk, hn⟩ := mem_take_iff.1 hd
          have hposn := hx.wf n d hn
          rcases d with ⟨s, act⟩
          simp only at hst
          subst hst
          obtain ⟨n', s', rf', h1, h2, h3⟩ := ih n (by omega) s o (hposn.1 o (by simp [Act.uses]))
          exact ⟨n', s', rf', by omega, h2, .trans (h3 _ _ le_rfl hn) (.msg hnk hn he)⟩
        · exact old ho
      · exact old ho
    | spawn v =>
      simp only [known.learn] at ho
      split at ho
      · subst t
        rcases List.mem_append.1 ho with ho | ho
        · obtain ⟨n, s, rf, h1, h2, h3⟩ := ih k (by omega) u o ho
          exact ⟨n, s, rf, by omega, h2,
            fun j a hj hja => .trans (h3 k _ le_rfl he) (.go (by omega) he hja)⟩
        · exact old ho
      · exact old ho

/-- The construction of an object happens before every use of it. -/
theorem Execution.new_before {tr : Trace} (hx : Execution tr) (hs : PtrOrdered tr) {i j t u a o rf} (hi : tr[i]? = some ⟨t, .new o rf⟩)
    (hj : tr[j]? = some ⟨u, a⟩) (ho : o ∈ a.uses) : HB tr i j := by
  obtain ⟨n, s, rf', h1, h2, h3⟩ := hx.published hs j u o ((hx.wf j _ hj).1 o ho)
  obtain rfl := new_unique hx.wf h2 hi
  exact h3 j _ le_rfl hj

theorem uses_of_access {x : Loc} {a : Act} {k : Access} (h : a.access x = some k) :
    (∃ rf, a = .new x.obj rf) ∨ x.obj ∈ a.uses := by
  cases a with
  | new o rf =>
    simp only [Act.access] at h
    split at h
    · subst o; exact .inl ⟨rf, rfl⟩
    · cases h
  | read y v =>
    simp only [Act.access] at h
    split at h
    · subst y; right; simp [Act.uses]
    · cases h
  | write y v =>
    simp only [Act.access] at h
    split at h
    · subst y; right; simp [Act.uses]
    · cases h
  | atomic y =>
    simp only [Act.access] at h
    split at h
    · subst y; right; simp [Act.uses]
    · cases h
  | _ => simp [Act.access] at h

/-- In a race, neither access is the initialisation. -/
theorem Execution.race_uses {tr : Trace} (hx : Execution tr) (hs : PtrOrdered tr) {x i j} (h : Race tr x i j) :
    ∃ e f a b, tr[i]? = some e ∧ tr[j]? = some f ∧ e.tid ≠ f.tid ∧ e.act.access x = some a ∧
      f.act.access x = some b ∧ a.conflict b = true ∧ ¬ HB tr i j ∧
      (∀ rf, e.act ≠ .new x.obj rf) ∧ (∀ rf, f.act ≠ .new x.obj rf) := by
  obtain ⟨hij, ⟨t, p⟩, ⟨u, q⟩, a, b, hi, hj, hne, ha, hb, hc, hn⟩ := h
  have h2 : ∀ rf, q ≠ .new x.obj rf := by
    rintro rf rfl
    obtain ⟨g1, g2⟩ := (hx.wf j _ hj).2 _ (mem_take_iff.2 ⟨i, hij, hi⟩)
    rcases uses_of_access ha with ⟨rf', h⟩ | h
    · subst h; exact g2 rfl
    · exact g1 h
  have h1 : ∀ rf, p ≠ .new x.obj rf := by
    rintro rf rfl
    rcases uses_of_access hb with ⟨rf', h⟩ | h
    · exact h2 rf' h
    · exact hn (hx.new_before hs hi hj h)
  exact ⟨_, _, a, b, hi, hj, hne, ha, hb, hc, hn, h1, h2⟩

/-- A race can only be on an unprotected field. -/
theorem Execution.race_unprotected {tr : Trace} (hx : Execution tr) (hs : PtrOrdered tr) {x i j} (h : Race tr x i j) :
    x.prot = .unprotected ∨ x.prot = .pointer := by
  have hij := h.1
  obtain ⟨⟨t, p⟩, ⟨u, q⟩, a, b, hi, hj, hne, ha, hb, hc, hn, h1, h2⟩ := hx.race_uses hs h
  have gi := hx.good hi
  have gj := hx.good hj
  -- shapes of the two accesses
  have shape : ∀ {p : Act} {a : Access}, p.access x = some a → (∀ rf, p ≠ .new x.obj rf) →
      (∃ v, p = .read x v ∧ a = .read) ∨ (∃ v, p = .write x v ∧ a = .write) ∨ (p = .atomic x ∧ a = .atomic) := by
    intro p a h hnew
    cases p with
    | new o rf =>
      simp only [Act.access] at h
      split at h
      · subst o; exact absurd rfl (hnew rf)
      · cases h
    | read y v =>
      simp only [Act.access] at h
      split at h
      · subst y; left; exact ⟨v, rfl, by simpa using h.symm⟩
      · cases h
    | write y v =>
      simp only [Act.access] at h
      split at h
      · subst y; right; left; exact ⟨v, rfl, by simpa using h.symm⟩
      · cases h
    | atomic y =>
      simp only [Act.access] at h
      split at h
      · subst y; right; right; exact ⟨rfl, by simpa using h.symm⟩
      · cases h
    | _ => simp [Act.access] at h
  cases hp : x.prot with
  | unprotected => exact .inl rfl
  | pointer => exact .inr rfl
  | const =>
    exfalso
    rcases shape ha h1 with ⟨v, rfl, rfl⟩ | ⟨v, rfl, rfl⟩ | ⟨rfl, rfl⟩
    · rcases shape hb h2 with ⟨v', rfl, rfl⟩ | ⟨v', rfl, rfl⟩ | ⟨rfl, rfl⟩
      · simp [Access.conflict] at hc
      · simp [Good, hp] at gj
      · simp [Good, hp] at gj
    · simp [Good, hp] at gi
    · simp [Good, hp] at gi
  | atomic =>
    exfalso
    rcases shape ha h1 with ⟨v, rfl, rfl⟩ | ⟨v, rfl, rfl⟩ | ⟨rfl, rfl⟩
    · simp [Good, hp] at gi
    · simp [Good, hp] at gi
    · rcases shape hb h2 with ⟨v', rfl, rfl⟩ | ⟨v', rfl, rfl⟩ | ⟨rfl, rfl⟩
      · simp [Good, hp] at gj
      · simp [Good, hp] at gj
      · simp [Access.conflict] at hc
  | guarded =>
    exfalso
    rcases shape ha h1 with ⟨v, rfl, rfl⟩ | ⟨v, rfl, rfl⟩ | ⟨rfl, rfl⟩
    · obtain ⟨w, hw⟩ := hx.read_held hi hp
      rcases shape hb h2 with ⟨v', rfl, rfl⟩ | ⟨v', rfl, rfl⟩ | ⟨rfl, rfl⟩
      · simp [Access.conflict] at hc
      · exact hn (.of_locks hx.wf hij hi hj (by simp) hw (hx.write_held hj hp) (.inr rfl))
      · simp [Good, hp] at gj
    · have hw := hx.write_held hi hp
      rcases shape hb h2 with ⟨v', rfl, rfl⟩ | ⟨v', rfl, rfl⟩ | ⟨rfl, rfl⟩
      · obtain ⟨w', hw'⟩ := hx.read_held hj hp
        exact hn (.of_locks hx.wf hij hi hj (by simp) hw hw' (.inl rfl))
      · exact hn (.of_locks hx.wf hij hi hj (by simp) hw (hx.write_held hj hp) (.inr rfl))
      · simp [Good, hp] at gj
    · simp [Good, hp] at gi

/-! ### Tools for concrete executions -/

instance (tr : Trace) (t m w) : Decidable (Holds tr t m w) := by unfold Holds; infer_instance

instance (tr : Trace) (e : Ev) : Decidable (Possible tr e) := by
  unfold Possible
  have : Decidable (match e.act with
      | .new o _ => ∀ d ∈ tr, o ∉ d.act.uses ∧ d.act.creates ≠ some o
      | .read x (some o) => ∃ d ∈ tr, d.act.stores x o = true
      | .recv k o => ∃ d ∈ tr, d.act = .send k o
      | .acq m w => ∀ u ∈ tids tr, ¬ Holds tr u m true ∧ (w = true → ¬ Holds tr u m false)
      | _ => True) := by
    split <;> infer_instance
  infer_instance

theorem wellFormed_of {tr : Trace} (h : ∀ i : Fin tr.length, Possible (tr.take i) tr[i]) : WellFormed tr := by
  intro i e he
  obtain ⟨hi, rfl⟩ := List.getElem?_eq_some_iff.1 he
  exact h ⟨i, hi⟩

/-- A synchronisation between two given events. -/
def edge (e f : Ev) : Bool :=
  e.tid = f.tid ||
  match e.act, f.act with
  | .rel m w, .acq m' w' => m = m' && (w || w')
  | .send k o, .recv k' o' => k = k' && o = o'
  | .spawn u, _ => u = f.tid
  | _, _ => false

/-- Neighbouring events are ordered only by a direct synchronisation. -/
theorem not_HB_succ {tr : Trace} {i : Nat} {e f : Ev} (hi : tr[i]? = some e) (hj : tr[i + 1]? = some f)
    (h : edge e f = false) : ¬ HB tr i (i + 1) := by
  suffices ∀ a b, HB tr a b → a = i → b = i + 1 → False from fun hb => this _ _ hb rfl rfl
  intro a b hab
  induction hab with
  | po hlt h1 h2 h3 =>
    rintro rfl rfl
    rw [hi] at h1; rw [hj] at h2
    cases h1; cases h2
    simp [edge, h3] at h
  | lock hlt h1 h2 h3 =>
    rintro rfl rfl
    rw [hi] at h1; rw [hj] at h2
    cases h1; cases h2
    rcases h3 with rfl | rfl <;> simp [edge] at h
  | go hlt h1 h2 =>
    rintro rfl rfl
    rw [hi] at h1; rw [hj] at h2
    cases h1; cases h2
    simp [edge] at h
  | msg hlt h1 h2 =>
    rintro rfl rfl
    rw [hi] at h1; rw [hj] at h2
    cases h1; cases h2
    simp [edge] at h
  | trans h1 h2 _ _ =>
    rintro rfl rfl
    have := h1.lt
    have := h2.lt
    omega

/-- Events are not ordered if the later one is in a set that no synchronisation enters, and
the earlier one is not. -/
theorem not_HB_of_cut {tr : Trace} (S : Nat → Bool)
    (hS : ∀ i j e f, i < j → tr[i]? = some e → tr[j]? = some f → edge e f = true → S j = true → S i = true)
    {i j : Nat} (hi : S i = false) (hj : S j = true) : ¬ HB tr i j := by
  have key : ∀ {a b}, HB tr a b → S b = true → S a = true := by
    intro a b h
    induction h with
    | po hlt h1 h2 h3 => exact hS _ _ _ _ hlt h1 h2 (by simp [edge, h3])
    | lock hlt h1 h2 h3 => exact hS _ _ _ _ hlt h1 h2 (by rcases h3 with rfl | rfl <;> simp [edge])
    | go hlt h1 h2 => exact hS _ _ _ _ hlt h1 h2 (by simp [edge])
    | msg hlt h1 h2 => exact hS _ _ _ _ hlt h1 h2 (by simp [edge])
    | trans _ _ h1 h2 => exact fun h => h1 (h2 h)
  intro h
  rw [key h hj] at hi
  cases hi

theorem Lang.userThen {c p q r r'} (h : Lang (body c) p r) (hq : Lang .user q r') : Lang .user (p ++ q) r' :=
  .userCall (.call h) hq

theorem Lang.unlessNil_alloc {kind rf} {o : Obj} (ho : o.kind = kind) :
    Lang (unlessNil (.alloc kind rf fun _ => .skip))
      [.read ⟨globals, .useNilMetrics⟩ none, .new o rf] .ok :=
  .seq (.act _) (.altR (.alloc ho .skip))

theorem Execution.of {tr : Trace} (n : Nat) (hw : ∀ i : Fin tr.length, Possible (tr.take i) tr[i])
    (ht : ∀ e ∈ tr, e.tid < n) (hc : ∀ t < n, ∃ p r, Lang .user p r ∧ proj t tr <+: p) : Execution tr := by
  refine ⟨wellFormed_of hw, fun t => ?_⟩
  by_cases h : t < n
  · exact hc t h
  · refine ⟨[], .ok, .userNil, ?_⟩
    have : proj t tr = [] := by
      simp only [proj, List.map_eq_nil_iff, List.filter_eq_nil_iff, decide_eq_true_eq]
      rintro e he rfl
      exact h (ht e he)
    rw [this]; exact List.prefix_rfl

end GoMetrics.Mem
