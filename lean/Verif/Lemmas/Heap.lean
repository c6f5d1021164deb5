import Verif.Model.ExpDecay
import Verif.Lemmas.Stats
import Mathlib.Data.List.GetD

/-! The array heap: structure (sizes, multisets) for arbitrary keys, heap order for keys that are totally preordered. -/

set_option linter.unusedSimpArgs false
set_option linter.unusedSectionVars false
set_option linter.unnecessarySeqFocus false

namespace GoMetrics

variable {F : Type} [GoFloat F]

theorem index_nat {α : Type} {a : List α} {i : Nat} (h : i < a.length) : index a (i : Int) = .ok a[i] := by
  obtain ⟨_, this⟩ := index_ok (a := a) (i := (i : Int)) (by omega) (by omega)
  simpa using this

/-! ### swaps -/

/-- Two positions exchanged. -/
def swapped {α : Type} (s : List α) (i j : Nat) (hi : i < s.length) (hj : j < s.length) : List α := (s.set i s[j]).set j s[i]

theorem swapItems_ok {s : List (Item F)} {i j : Nat} (hi : i < s.length) (hj : j < s.length) :
    swapItems s i j = .ok (swapped s i j hi hj) := by
  unfold swapItems
  rw [index_nat hi, index_nat hj]
  rfl

theorem swapped_perm {α : Type} {s : List α} {i j : Nat} (hi : i < s.length) (hj : j < s.length) :
    (swapped s i j hi hj).Perm s := List.set_set_perm hi hj

theorem swapped_length {α : Type} {s : List α} {i j : Nat} (hi : i < s.length) (hj : j < s.length) :
    (swapped s i j hi hj).length = s.length := by simp [swapped]

theorem swapped_getD {α : Type} {s : List α} {i j : Nat} (hi : i < s.length) (hj : j < s.length) (d : α) (m : Nat) :
    (swapped s i j hi hj).getD m d = if m = j then s.getD i d else if m = i then s.getD j d else s.getD m d := by
  unfold swapped
  simp only [List.getD_eq_getElem?_getD, List.getElem?_set]
  by_cases h1 : j = m
  · subst h1
    have : j < (s.set i s[j]).length := by simpa using hj
    simp [hi, hj]
  · by_cases h2 : i = m
    · subst h2; simp [hi, hj, h1, Ne.symm h1]
    · simp [h1, h2, Ne.symm h1, Ne.symm h2]

/-! ### order -/

/-- `<` is a total preorder on the keys satisfying `P`. -/
structure KeyOrder (F : Type) [GoFloat F] (P : F → Prop) : Prop where
  asymm : ∀ a b, P a → P b → GoFloat.lt a b = true → GoFloat.lt b a = false
  trans : ∀ a b c, P a → P b → P c → GoFloat.lt b a = false → GoFloat.lt c b = false → GoFloat.lt c a = false

theorem KeyOrder.irrefl {P : F → Prop} (ho : KeyOrder F P) (a : F) (ha : P a) : GoFloat.lt a a = false := by
  cases h : GoFloat.lt a a
  · rfl
  · exact absurd (ho.asymm a a ha ha h) (by simp [h])

/-- The key at position `i` is not below the key at position `j`. -/
def NB (d : Item F) (s : List (Item F)) (i j : Nat) : Prop := GoFloat.lt (s.getD i d).k (s.getD j d).k = false

/-- The first `n` elements are in heap order. -/
def IsHeap (d : Item F) (s : List (Item F)) (n : Nat) : Prop := ∀ m, 0 < m → m < n → NB d s m ((m - 1) / 2)

def AllP (P : F → Prop) (s : List (Item F)) : Prop := ∀ x ∈ s, P x.k

theorem AllP.perm {P : F → Prop} {s s' : List (Item F)} (h : AllP P s) (hp : s'.Perm s) : AllP P s' :=
  fun x hx => h x (hp.mem_iff.1 hx)

theorem AllP.getD {P : F → Prop} {s : List (Item F)} (h : AllP P s) (d : Item F) {i : Nat} (hi : i < s.length) : P (s.getD i d).k := by
  rw [List.getD_eq_getElem _ _ hi]; exact h _ (List.getElem_mem hi)

theorem getD_of_lt {α : Type} {s : List α} {i : Nat} (h : i < s.length) (d : α) : s[i] = s.getD i d :=
  (List.getD_eq_getElem _ _ h).symm

theorem IsHeap.root {P : F → Prop} (ho : KeyOrder F P) {d : Item F} {s : List (Item F)} {n : Nat} (hn : n ≤ s.length)
    (h : IsHeap d s n) (hP : AllP P s) (m : Nat) (hm : m < n) : NB d s m 0 := by
  induction m using Nat.strong_induction_on with
  | _ m ih =>
    rcases Nat.eq_zero_or_pos m with rfl | hpos
    · exact ho.irrefl _ (hP.getD d (by omega))
    · exact ho.trans _ _ _ (hP.getD d (by omega)) (hP.getD d (by omega)) (hP.getD d (by omega))
        (ih ((m - 1) / 2) (by omega) (by omega)) (h m hpos hm)

/-! ### up -/

/-- Heap order except possibly between `j` and its parent. -/
def UpInv (d : Item F) (s : List (Item F)) (j : Nat) : Prop :=
  (∀ m, 0 < m → m < s.length → m ≠ j → NB d s m ((m - 1) / 2)) ∧
  (∀ c, 0 < c → c < s.length → (c - 1) / 2 = j → 0 < j → NB d s c ((j - 1) / 2))

theorem heapUp_spec (s : List (Item F)) (j : Nat) (hj : j < s.length) :
    ∃ s', heapUp s j = .ok s' ∧ s'.Perm s ∧
      ∀ (P : F → Prop) (d : Item F), KeyOrder F P → AllP P s → UpInv d s j → IsHeap d s' s'.length := by
  induction j using Nat.strong_induction_on generalizing s with
  | _ j ih =>
    rw [heapUp]
    split
    · rename_i h0
      have hj0 : j = 0 := by omega
      refine ⟨s, rfl, List.Perm.refl _, fun P d ho hP hu m h1 h2 => hu.1 m h1 h2 (by omega)⟩
    · rename_i h0
      have hpos : 0 < j := by omega
      have hi : (j - 1) / 2 < s.length := by omega
      rw [index_nat hj, index_nat hi]
      simp only [bind, Except.bind]
      split
      · rename_i hlt
        refine ⟨s, rfl, List.Perm.refl _, fun P d ho hP hu m h1 h2 => ?_⟩
        by_cases hm : m = j
        · subst hm
          have := hlt
          rw [getD_of_lt hj d, getD_of_lt hi d] at this
          simpa [NB] using this
        · exact hu.1 m h1 h2 hm
      · rename_i hlt
        rw [swapItems_ok hi hj]
        dsimp only
        have hlen := swapped_length hi hj
        obtain ⟨s', h1, h2, h3⟩ := ih ((j - 1) / 2) (by omega) (swapped s ((j - 1) / 2) j hi hj) (by omega)
        refine ⟨s', h1, h2.trans (swapped_perm hi hj), fun P d ho hP hu => h3 P d ho (hP.perm (swapped_perm hi hj)) ?_⟩
        have hlt' : GoFloat.lt (s.getD j d).k (s.getD ((j - 1) / 2) d).k = true := by
          rw [← getD_of_lt hj d, ← getD_of_lt hi d]; simpa using hlt
        have has : NB d s ((j - 1) / 2) j := ho.asymm _ _ (hP.getD d hj) (hP.getD d hi) hlt'
        have hpar : ∀ m, 0 < m → m < s.length → (m - 1) / 2 = (j - 1) / 2 → m ≠ j → NB d s m j := by
          intro m hm0 hml hme hmj
          have := hu.1 m hm0 hml hmj
          rw [hme] at this
          exact ho.trans _ _ _ (hP.getD d hj) (hP.getD d hi) (hP.getD d hml) has this
        constructor
        · intro m hm0 hml hmi
          rw [hlen] at hml
          unfold NB
          rw [swapped_getD, swapped_getD]
          by_cases hmj : m = j
          · rw [if_pos hmj, hmj, if_neg (by omega), if_pos rfl]; exact has
          · rw [if_neg hmj, if_neg hmi]
            by_cases hpj : (m - 1) / 2 = j
            · rw [if_pos hpj]; exact hu.2 m hm0 hml hpj hpos
            · rw [if_neg hpj]
              by_cases hpi : (m - 1) / 2 = (j - 1) / 2
              · rw [if_pos hpi]; exact hpar m hm0 hml hpi hmj
              · rw [if_neg hpi]; exact hu.1 m hm0 hml hmj
        · intro c hc0 hcl hce hi0
          rw [hlen] at hcl
          unfold NB
          have hii : NB d s ((j - 1) / 2) (((j - 1) / 2 - 1) / 2) := hu.1 _ hi0 hi (by omega)
          rw [swapped_getD, swapped_getD, if_neg (by omega : ((j - 1) / 2 - 1) / 2 ≠ j),
            if_neg (by omega : ((j - 1) / 2 - 1) / 2 ≠ (j - 1) / 2)]
          by_cases hcj : c = j
          · rw [if_pos hcj]; exact hii
          · rw [if_neg hcj, if_neg (by omega)]
            have := hu.1 c hc0 hcl hcj
            rw [hce] at this
            exact ho.trans _ _ _ (hP.getD d (by omega)) (hP.getD d hi) (hP.getD d hcl) hii this

/-! ### down -/

/-- Heap order on the first `n` elements except possibly between `i` and its children. -/
def DownInv (d : Item F) (s : List (Item F)) (i n : Nat) : Prop :=
  (∀ m, 0 < m → m < n → (m - 1) / 2 ≠ i → NB d s m ((m - 1) / 2)) ∧
  (∀ c, 0 < c → c < n → (c - 1) / 2 = i → 0 < i → NB d s c ((i - 1) / 2))

theorem heapDown_spec (s : List (Item F)) (i n : Nat) (hn : n ≤ s.length) :
    ∃ s', heapDown s i n = .ok s' ∧ s'.Perm s ∧ (∀ (d : Item F) m, n ≤ m → s'.getD m d = s.getD m d) ∧
      ∀ (P : F → Prop) (d : Item F), KeyOrder F P → AllP P s → DownInv d s i n → IsHeap d s' n := by
  induction hk : n - i using Nat.strong_induction_on generalizing s i with
  | _ k ih =>
    rw [heapDown]
    split
    · rename_i h
      exact ⟨s, rfl, List.Perm.refl _, fun _ _ _ => rfl, fun P d ho hP hu m h1 h2 => hu.1 m h1 h2 (by omega)⟩
    · rename_i h
      have hl1 : 2 * i + 1 < s.length := by omega
      have hil : i < s.length := by omega
      rw [index_nat hl1]
      simp only [bind, Except.bind]
      -- the chosen child
      have hchoice : ∃ j : {j : Nat // i < j ∧ j < n}, (if h2 : 2 * i + 2 < n then do
          let a2 ← index s (2 * i + 2 : Nat)
          return (if !(GoFloat.lt s[2 * i + 1].k a2.k) then (⟨2 * i + 2, by omega⟩ : {j : Nat // i < j ∧ j < n}) else ⟨2 * i + 1, by omega⟩)
        else return ⟨2 * i + 1, by omega⟩ : Res {j : Nat // i < j ∧ j < n}) = .ok j ∧ (j.1 - 1) / 2 = i ∧
          ∀ (P : F → Prop) (d : Item F), KeyOrder F P → AllP P s → ∀ c, 0 < c → c < n → (c - 1) / 2 = i → NB d s c j.1 := by
        split
        · rename_i h2
          rw [index_nat (show 2 * i + 2 < s.length by omega)]
          simp only [bind, Except.bind, pure, Except.pure]
          split
          · rename_i hlt
            refine ⟨⟨2 * i + 2, by omega⟩, rfl, by dsimp only; omega, fun P d ho hP c hc0 hcn hce => ?_⟩
            rcases (by omega : c = 2 * i + 1 ∨ c = 2 * i + 2) with rfl | rfl
            · rw [getD_of_lt hl1 d, getD_of_lt (show 2 * i + 2 < s.length by omega) d] at hlt
              simpa [NB] using hlt
            · exact ho.irrefl _ (hP.getD d (by omega))
          · rename_i hlt
            refine ⟨⟨2 * i + 1, by omega⟩, rfl, by dsimp only; omega, fun P d ho hP c hc0 hcn hce => ?_⟩
            rcases (by omega : c = 2 * i + 1 ∨ c = 2 * i + 2) with rfl | rfl
            · exact ho.irrefl _ (hP.getD d (by omega))
            · rw [getD_of_lt hl1 d, getD_of_lt (show 2 * i + 2 < s.length by omega) d] at hlt
              exact ho.asymm _ _ (hP.getD d (by omega)) (hP.getD d (by omega)) (by simpa using hlt)
        · rename_i h2
          refine ⟨⟨2 * i + 1, by omega⟩, rfl, by dsimp only; omega, fun P d ho hP c hc0 hcn hce => ?_⟩
          have : c = 2 * i + 1 := by omega
          subst this
          exact ho.irrefl _ (hP.getD d (by omega))
      obtain ⟨⟨j, hij, hjn⟩, hj, hpar, hmin⟩ := hchoice
      simp only [bind, Except.bind] at hj
      rw [hj]
      dsimp only at hpar hmin ⊢
      have hjl : j < s.length := by omega
      rw [index_nat hjl, index_nat hil]
      dsimp only
      split
      · rename_i hlt
        refine ⟨s, rfl, List.Perm.refl _, fun _ _ _ => rfl, fun P d ho hP hu m h1 h2 => ?_⟩
        rw [getD_of_lt hjl d, getD_of_lt hil d] at hlt
        by_cases hm : (m - 1) / 2 = i
        · rw [hm]
          exact ho.trans _ _ _ (hP.getD d hil) (hP.getD d hjl) (hP.getD d (by omega)) (by simpa using hlt) (hmin P d ho hP m h1 h2 hm)
        · exact hu.1 m h1 h2 hm
      · rename_i hlt
        rw [swapItems_ok hil hjl]
        dsimp only
        have hlen := swapped_length hil hjl
        obtain ⟨s', h1, h2, h3, h4⟩ := ih (n - j) (by omega) (swapped s i j hil hjl) j (by omega) rfl
        refine ⟨s', h1, h2.trans (swapped_perm hil hjl), fun d m hm => ?_, fun P d ho hP hu =>
          h4 P d ho (hP.perm (swapped_perm hil hjl)) ?_⟩
        · rw [h3 d m hm, swapped_getD, if_neg (by omega), if_neg (by omega)]
        · rw [getD_of_lt hjl d, getD_of_lt hil d] at hlt
          have has : NB d s i j := ho.asymm _ _ (hP.getD d hjl) (hP.getD d hil) (by simpa using hlt)
          constructor
          · intro m hm0 hmn hmj
            unfold NB
            rw [swapped_getD, swapped_getD]
            by_cases hm : m = j
            · rw [if_pos hm, hm, if_neg (by omega), if_pos hpar]; exact has
            · rw [if_neg hm, if_neg hmj]
              by_cases hmi : m = i
              · rw [if_pos hmi, hmi, if_neg (by omega)]
                exact hu.2 j (by omega) hjn hpar (by omega)
              · rw [if_neg hmi]
                by_cases hp : (m - 1) / 2 = i
                · rw [if_pos hp]; exact hmin P d ho hP m hm0 hmn hp
                · rw [if_neg hp]; exact hu.1 m hm0 hmn hp
          · intro c hc0 hcn hce _
            unfold NB
            rw [hpar, swapped_getD, swapped_getD, if_neg (by omega), if_neg (by omega), if_neg (by omega), if_pos rfl]
            have := hu.1 c hc0 hcn (by omega)
            rwa [hce] at this

/-! ### push, pop, rescale -/

theorem push_spec (h : Heap F) (x y : Item F) (rest : List (Item F)) (hr : h.rest = y :: rest) :
    ∃ h', h.push x = .ok h' ∧ h'.s.Perm (x :: h.s) ∧ h'.rest = rest ∧
      ∀ (P : F → Prop) (d : Item F), KeyOrder F P → AllP P h.s → P x.k → IsHeap d h.s h.s.length → IsHeap d h'.s h'.s.length := by
  unfold Heap.push
  rw [hr]
  dsimp only
  obtain ⟨s', h1, h2, h3⟩ := heapUp_spec (h.s ++ [x]) h.s.length (by simp)
  rw [h1]
  refine ⟨⟨s', rest⟩, rfl, h2.trans (List.perm_append_singleton x h.s), rfl, fun P d ho hP hx hh => h3 P d ho ?_ ⟨?_, ?_⟩⟩
  · intro z hz
    rcases List.mem_append.1 hz with hz | hz
    · exact hP z hz
    · simp at hz; rw [hz]; exact hx
  · intro m h0 hm hne
    simp at hm
    have := hh m h0 (by omega)
    unfold NB at this ⊢
    rwa [List.getD_append _ _ _ _ (by omega), List.getD_append _ _ _ _ (by omega)]
  · intro c _ hc hce _
    simp at hc
    omega

theorem pop_spec (h : Heap F) (hne : h.s ≠ []) :
    ∃ x h', h.pop = .ok (x, h') ∧ (x :: h'.s).Perm h.s ∧ h'.rest.length = h.rest.length + 1 ∧
      ∀ (P : F → Prop) (d : Item F), KeyOrder F P → AllP P h.s → IsHeap d h.s h.s.length →
        IsHeap d h'.s h'.s.length ∧ ∀ y ∈ h.s, GoFloat.lt y.k x.k = false := by
  have hpos : 0 < h.s.length := List.length_pos_iff.2 hne
  obtain ⟨n, hn⟩ : ∃ n, h.s.length = n + 1 := ⟨h.s.length - 1, by omega⟩
  unfold Heap.pop
  rw [hn]
  dsimp only
  have hn' : n < h.s.length := by omega
  have hsw := swapItems_ok (s := h.s) hpos hn'
  rw [show swapItems h.s 0 n = _ from hsw]
  simp only [bind, Except.bind]
  have hlen := swapped_length hpos hn'
  obtain ⟨s', h1, h2, h3, h4⟩ := heapDown_spec (swapped h.s 0 n hpos hn') 0 n (by omega)
  rw [h1]
  dsimp only
  have hl' : s'.length = n + 1 := by rw [h2.length_eq, hlen, hn]
  have hnl : n < s'.length := by omega
  rw [index_nat hnl]
  dsimp only
  have hx : ∀ d : Item F, s'[n] = h.s.getD 0 d := by
    intro d
    rw [getD_of_lt hnl d, h3 d n le_rfl, swapped_getD, if_pos rfl]
  have hdrop : s'.drop n = [s'[n]] := by
    rw [List.drop_eq_getElem_cons hnl, List.drop_of_length_le (by omega)]
  have hperm : (s'[n] :: s'.take n).Perm h.s := by
    refine List.Perm.trans ?_ (h2.trans (swapped_perm hpos hn'))
    refine (List.perm_append_singleton _ _).symm.trans ?_
    rw [← hdrop, List.take_append_drop]
  refine ⟨s'[n], _, rfl, hperm, ?_, fun P d ho hP hh => ⟨?_, fun y hy => ?_⟩⟩
  · simp [hdrop]
  · have hd : DownInv d (swapped h.s 0 n hpos hn') 0 n := by
      constructor
      · intro m hm0 hmn hmp
        have := hh m hm0 (by omega)
        unfold NB at this ⊢
        rwa [swapped_getD, swapped_getD, if_neg (by omega), if_neg (by omega), if_neg (by omega), if_neg (by omega)]
      · intro c _ _ _ h0; omega
    have := h4 P d ho (hP.perm (swapped_perm hpos hn')) hd
    intro m hm0 hm
    simp [hl'] at hm
    have hthis := this m hm0 (by omega)
    have htake : ∀ q, q < n → (s'.take n).getD q d = s'.getD q d := by
      intro q hq
      rw [← getD_of_lt (by simp; omega), ← getD_of_lt (by omega), List.getElem_take]
    unfold NB at hthis ⊢
    dsimp only
    rwa [htake m (by omega), htake _ (by omega)]
  · obtain ⟨m, hm, rfl⟩ := List.getElem_of_mem hy
    rw [hx d, getD_of_lt hm d]
    exact IsHeap.root ho (by omega) hh hP m (by omega)

namespace ExpDecaySample

/-- An item with its priority multiplied. -/
def scaleItem (f : F) (x : Item F) : Item F := { k := GoFloat.mul x.k f, v := x.v }

theorem rescaleLoop_spec (f : F) (n i : Nat) (h : Heap F) (hi : h.s.length = i) (hin : i ≤ n) (hr : n - i ≤ h.rest.length) :
    ∃ h', rescaleLoop f n i h = .ok h' ∧ h'.s.Perm ((h.rest.take (n - i)).map (scaleItem f) ++ h.s) ∧
      h'.rest = h.rest.drop (n - i) ∧
      ∀ (P : F → Prop) (d : Item F), KeyOrder F P → AllP P h.s → AllP P ((h.rest.take (n - i)).map (scaleItem f)) →
        IsHeap d h.s h.s.length → IsHeap d h'.s h'.s.length := by
  induction hk : n - i generalizing h i with
  | zero =>
    rw [rescaleLoop, if_neg (by omega)]
    exact ⟨h, rfl, by simp, by simp, fun P d _ _ _ hh => hh⟩
  | succ k ih =>
    rw [rescaleLoop, if_pos (by omega)]
    obtain ⟨y, rest, hrest⟩ : ∃ y rest, h.rest = y :: rest := by
      cases hh : h.rest with
      | nil => rw [hh] at hr; simp at hr; omega
      | cons y rest => exact ⟨y, rest, rfl⟩
    have hidx : index (h.s ++ h.rest) (i : Int) = .ok y := by
      rw [index_nat (by rw [hrest]; simp; omega)]
      congr 1
      simp [hrest, List.getElem_append_right, hi]
    rw [hidx]
    simp only [bind, Except.bind]
    obtain ⟨h1, e1, p1, r1, o1⟩ := push_spec h (scaleItem f y) y rest hrest
    have hl1 : h1.s.length = i + 1 := by rw [p1.length_eq]; simp [hi]
    rw [show h.push { k := GoFloat.mul y.k f, v := y.v } = .ok h1 from e1]
    dsimp only
    rw [hrest] at hr
    obtain ⟨h2, e2, p2, r2, o2⟩ := ih (i + 1) h1 hl1 (by omega) (by rw [r1]; simp at hr; omega) (by omega)
    refine ⟨h2, e2, ?_, ?_, fun P d ho hP hrP hh => o2 P d ho ?_ ?_ (o1 P d ho hP ?_ hh)⟩
    · rw [hrest, r1] at *
      refine p2.trans ?_
      simp only [List.take_succ_cons, List.map_cons, List.cons_append]
      refine (List.Perm.append_left _ p1).trans ?_
      exact List.perm_middle
    · rw [r2, r1, hrest]; rfl
    · rw [hrest] at hrP
      simp only [List.take_succ_cons, List.map_cons] at hrP
      intro x hx
      rw [p1.mem_iff] at hx
      rcases List.mem_cons.1 hx with rfl | hx
      · exact hrP _ List.mem_cons_self
      · exact hP x hx
    · rw [hrest] at hrP
      rw [r1]
      intro x hx
      exact hrP x (by simp only [List.take_succ_cons, List.map_cons]; exact List.mem_cons_of_mem _ hx)
    · rw [hrest] at hrP
      exact hrP _ (by simp only [List.take_succ_cons, List.map_cons]; exact List.mem_cons_self)

end ExpDecaySample
end GoMetrics
