import Verif.Go.Utf8
import Verif.Spec.JsonRead

/-! UTF-8 as Go decodes it and as RFC 3629 defines it. -/

namespace GoMetrics
open Spec

theorem byte_eq {n : Nat} {b : UInt8} (h : n = b.toNat) : UInt8.ofNat n = b := by
  rw [← UInt8.toNat_inj, UInt8.toNat_ofNat', h]
  have := b.toNat_lt
  omega

theorem ofNat_byte_inj {m n : Nat} (h : UInt8.ofNat m = UInt8.ofNat n) : m % 256 = n % 256 := by
  rw [← UInt8.toNat_inj, UInt8.toNat_ofNat', UInt8.toNat_ofNat'] at h
  exact h

theorem utf8_inj {c c' : Nat} (hc : Scalar c) (hc' : Scalar c') {r r' : Str} (h : utf8 c ++ r = utf8 c' ++ r') : c = c' ∧ r = r' := by
  unfold Scalar at hc hc'
  unfold utf8 at h
  split_ifs at h <;> simp only [List.cons_append, List.nil_append, List.cons.injEq] at h
  all_goals
    first
    | (obtain ⟨h1, h2, h3, h4, h5⟩ := h
       have h1 := ofNat_byte_inj h1
       have h2 := ofNat_byte_inj h2
       have h3 := ofNat_byte_inj h3
       have h4 := ofNat_byte_inj h4
       exact ⟨by omega, h5⟩)
    | (obtain ⟨h1, h2, h3, h5⟩ := h
       have h1 := ofNat_byte_inj h1
       have h2 := ofNat_byte_inj h2
       have h3 := ofNat_byte_inj h3
       exact ⟨by omega, h5⟩)
    | (obtain ⟨h1, h2, h5⟩ := h
       have h1 := ofNat_byte_inj h1
       have h2 := ofNat_byte_inj h2
       exact ⟨by omega, h5⟩)
    | (obtain ⟨h1, h5⟩ := h
       have h1 := ofNat_byte_inj h1
       exact ⟨by omega, h5⟩)
    | (have h1 := ofNat_byte_inj h.1
       omega)

theorem startsWith_eq {s : Str} {k : Nat} (h : startsWith s k = true) : Scalar (payload k s) ∧ s = utf8 (payload k s) ++ s.drop k := by
  simp only [startsWith, Bool.and_eq_true, decide_eq_true_eq, beq_iff_eq] at h
  exact ⟨h.1, by rw [h.2, List.take_append_drop]⟩

theorem readChar_some {s : Str} {c : Nat} {r : Str} (h : readChar s = some (c, r)) : Scalar c ∧ s = utf8 c ++ r := by
  unfold readChar at h
  split_ifs at h with h1 h2 h3 h4 <;> cases h <;> (apply startsWith_eq; assumption)

theorem readChar_utf8 {c : Nat} (hc : Scalar c) (r : Str) : readChar (utf8 c ++ r) = some (c, r) := by
  have key : ∃ k, (k = 1 ∨ k = 2 ∨ k = 3 ∨ k = 4) ∧ startsWith (utf8 c ++ r) k = true := by
    have e : ∀ k, (utf8 c).length = k → payload k (utf8 c ++ r) = c → startsWith (utf8 c ++ r) k = true := by
      intro k h1 h2
      simp only [startsWith, h2, Bool.and_eq_true, decide_eq_true_eq, beq_iff_eq]
      exact ⟨hc, by rw [← h1, List.take_left]⟩
    have hc' := hc
    unfold Scalar at hc'
    by_cases h1 : c < 0x80
    · refine ⟨1, by simp, e 1 (by simp [utf8, h1]) ?_⟩
      simp only [utf8, if_pos h1, payload, List.cons_append, List.nil_append, List.take, List.foldl, if_pos, UInt8.toNat_ofNat', Nat.sub_self]
      omega
    by_cases h2 : c < 0x800
    · refine ⟨2, by simp, e 2 (by simp [utf8, h1, h2]) ?_⟩
      simp only [utf8, if_neg h1, if_pos h2, payload, List.cons_append, List.nil_append, List.take, List.foldl, UInt8.toNat_ofNat', Nat.reduceEqDiff, if_false, Nat.reduceSub, Nat.reducePow]
      omega
    by_cases h3 : c < 0x10000
    · refine ⟨3, by simp, e 3 (by simp [utf8, h1, h2, h3]) ?_⟩
      simp only [utf8, if_neg h1, if_neg h2, if_pos h3, payload, List.cons_append, List.nil_append, List.take, List.foldl, UInt8.toNat_ofNat', Nat.reduceEqDiff, if_false, Nat.reduceSub, Nat.reducePow]
      omega
    · refine ⟨4, by simp, e 4 (by simp [utf8, h1, h2, h3]) ?_⟩
      simp only [utf8, if_neg h1, if_neg h2, if_neg h3, payload, List.cons_append, List.nil_append, List.take, List.foldl, UInt8.toNat_ofNat', Nat.reduceEqDiff, if_false, Nat.reduceSub, Nat.reducePow]
      omega
  have hs : (readChar (utf8 c ++ r)).isSome = true := by
    obtain ⟨k, hk, h⟩ := key
    unfold readChar
    split_ifs with h1 h2 h3 h4 <;> try rfl
    rcases hk with rfl | rfl | rfl | rfl
    · exact absurd h h1
    · exact absurd h h2
    · exact absurd h h3
    · exact absurd h h4
  obtain ⟨⟨c', r'⟩, h⟩ := Option.isSome_iff_exists.1 hs
  obtain ⟨h1, h2⟩ := readChar_some h
  obtain ⟨rfl, rfl⟩ := utf8_inj hc h1 h2
  exact h

theorem utf8_length (c : Nat) : 1 ≤ (utf8 c).length ∧ (utf8 c).length ≤ 4 := by
  unfold utf8
  split_ifs <;> simp

theorem utf8_cons (c : Nat) : ∃ b t, utf8 c = b :: t := by
  have := (utf8_length c).1
  cases h : utf8 c with
  | nil => rw [h] at this; simp at this
  | cons b t => exact ⟨b, t, rfl⟩

private theorem byte_lt {a b : UInt8} : a < b ↔ a.toNat < b.toNat := UInt8.lt_iff_toNat_lt
private theorem byte_eq_iff {a b : UInt8} : a = b ↔ a.toNat = b.toNat := UInt8.toNat_inj.symm

theorem decodeRune_two {b0 b1 : UInt8} {t : Str} (h0 : 0xC2 ≤ b0.toNat ∧ b0.toNat < 0xE0) (h1 : 0x80 ≤ b1.toNat ∧ b1.toNat ≤ 0xBF) :
    decodeRune (b0 :: b1 :: t) = (b0.toNat % 32 * 64 + b1.toNat % 64, 2) := by
  have e : utf8First b0 = some (2, 0x80, 0xBF) := by
    unfold utf8First
    simp only [byte_lt, byte_eq_iff, UInt8.reduceToNat]
    rw [if_neg (by omega), if_pos (by omega)]
  simp only [decodeRune]
  rw [if_neg (by rw [byte_lt]; simp only [UInt8.reduceToNat]; omega), e]
  simp only [byte_lt, Bool.or_eq_true, decide_eq_true_eq, UInt8.reduceToNat]
  rw [if_neg (by omega), if_pos trivial]

theorem decodeRune_three {b0 b1 b2 : UInt8} {t : Str} (h0 : 0xE0 ≤ b0.toNat ∧ b0.toNat < 0xF0) (h1 : 0x80 ≤ b1.toNat ∧ b1.toNat ≤ 0xBF) (h2 : 0x80 ≤ b2.toNat ∧ b2.toNat ≤ 0xBF)
    (ha : b0.toNat = 0xE0 → 0xA0 ≤ b1.toNat) (hb : b0.toNat = 0xED → b1.toNat ≤ 0x9F) :
    decodeRune (b0 :: b1 :: b2 :: t) = (b0.toNat % 16 * 4096 + b1.toNat % 64 * 64 + b2.toNat % 64, 3) := by
  have e : ∃ lo hi, utf8First b0 = some (3, lo, hi) ∧ lo.toNat ≤ b1.toNat ∧ b1.toNat ≤ hi.toNat := by
    unfold utf8First
    simp only [byte_lt, byte_eq_iff, UInt8.reduceToNat]
    rw [if_neg (by omega), if_neg (by omega)]
    split_ifs <;> first | omega | exact ⟨_, _, rfl, by simp only [UInt8.reduceToNat]; omega, by simp only [UInt8.reduceToNat]; omega⟩
  obtain ⟨lo, hi, e, h3, h4⟩ := e
  simp only [decodeRune]
  rw [if_neg (by rw [byte_lt]; simp only [UInt8.reduceToNat]; omega), e]
  simp only [byte_lt, Bool.or_eq_true, decide_eq_true_eq, UInt8.reduceToNat]
  rw [if_neg (by omega), if_neg (by omega), if_neg (by omega), if_pos trivial]

theorem decodeRune_four {b0 b1 b2 b3 : UInt8} {t : Str} (h0 : 0xF0 ≤ b0.toNat ∧ b0.toNat ≤ 0xF4) (h1 : 0x80 ≤ b1.toNat ∧ b1.toNat ≤ 0xBF) (h2 : 0x80 ≤ b2.toNat ∧ b2.toNat ≤ 0xBF)
    (h3 : 0x80 ≤ b3.toNat ∧ b3.toNat ≤ 0xBF) (ha : b0.toNat = 0xF0 → 0x90 ≤ b1.toNat) (hb : b0.toNat = 0xF4 → b1.toNat ≤ 0x8F) :
    decodeRune (b0 :: b1 :: b2 :: b3 :: t) = (b0.toNat % 8 * 262144 + b1.toNat % 64 * 4096 + b2.toNat % 64 * 64 + b3.toNat % 64, 4) := by
  have e : ∃ lo hi, utf8First b0 = some (4, lo, hi) ∧ lo.toNat ≤ b1.toNat ∧ b1.toNat ≤ hi.toNat := by
    unfold utf8First
    simp only [byte_lt, byte_eq_iff, UInt8.reduceToNat]
    rw [if_neg (by omega), if_neg (by omega), if_neg (by omega), if_neg (by omega), if_neg (by omega)]
    split_ifs <;> first | omega | exact ⟨_, _, rfl, by simp only [UInt8.reduceToNat]; omega, by simp only [UInt8.reduceToNat]; omega⟩
  obtain ⟨lo, hi, e, h4, h5⟩ := e
  simp only [decodeRune]
  rw [if_neg (by rw [byte_lt]; simp only [UInt8.reduceToNat]; omega), e]
  simp only [byte_lt, Bool.or_eq_true, decide_eq_true_eq, UInt8.reduceToNat]
  rw [if_neg (by omega), if_neg (by omega), if_neg (by omega), if_neg (by omega), if_neg (by omega)]

/-- Go decodes what was encoded. -/
theorem decodeRune_utf8 {c : Nat} (hc : Scalar c) (r : Str) : decodeRune (utf8 c ++ r) = (c, (utf8 c).length) := by
  unfold Scalar at hc
  have e : ∀ n, n < 256 → (UInt8.ofNat n).toNat = n := fun n h => by rw [UInt8.toNat_ofNat']; omega
  unfold utf8
  split_ifs with h1 h2 h3
  · simp only [List.cons_append, List.nil_append, decodeRune, List.length_singleton]
    rw [if_pos (by rw [UInt8.lt_iff_toNat_lt, e _ (by omega)]; exact h1), e _ (by omega)]
  · simp only [List.cons_append, List.nil_append, List.length]
    rw [decodeRune_two (by rw [e _ (by omega)]; omega) (by rw [e _ (by omega)]; omega), e _ (by omega), e _ (by omega), Prod.mk.injEq]
    omega
  · simp only [List.cons_append, List.nil_append, List.length]
    rw [decodeRune_three (by rw [e _ (by omega)]; omega) (by rw [e _ (by omega)]; omega) (by rw [e _ (by omega)]; omega) (by rw [e _ (by omega), e _ (by omega)]; omega)
      (by rw [e _ (by omega), e _ (by omega)]; omega), e _ (by omega), e _ (by omega), e _ (by omega), Prod.mk.injEq]
    omega
  · simp only [List.cons_append, List.nil_append, List.length]
    rw [decodeRune_four (by rw [e _ (by omega)]; omega) (by rw [e _ (by omega)]; omega) (by rw [e _ (by omega)]; omega) (by rw [e _ (by omega)]; omega)
      (by rw [e _ (by omega), e _ (by omega)]; omega) (by rw [e _ (by omega), e _ (by omega)]; omega), e _ (by omega), e _ (by omega), e _ (by omega), e _ (by omega), Prod.mk.injEq]
    omega

/-- What Go decodes was encoded. -/
theorem decodeRune_some {b : UInt8} {t : Str} {c n : Nat} (h : decodeRune (b :: t) = (c, n)) (he : ¬ (c = 0xFFFD ∧ n = 1)) :
    Scalar c ∧ b :: t = utf8 c ++ (b :: t).drop n ∧ (b :: t).take n = utf8 c := by
  suffices hs : Scalar c ∧ (b :: t).take n = utf8 c from ⟨hs.1, by rw [← hs.2, List.take_append_drop], hs.2⟩
  have err : ∀ {p : Prop}, runeError = (c, n) → p := by
    intro p h
    exact absurd ⟨(Prod.mk.inj h).1.symm, (Prod.mk.inj h).2.symm⟩ he
  have hb := b.toNat_lt
  simp only [decodeRune] at h
  split_ifs at h with h0
  · rw [byte_lt] at h0
    simp only [UInt8.reduceToNat] at h0
    cases h
    refine ⟨.inl (by omega), ?_⟩
    rw [utf8, if_pos (by omega), byte_eq rfl]
    rfl
  · rw [byte_lt] at h0
    simp only [UInt8.reduceToNat] at h0
    split at h
    · rename_i k lo hi b1 t hf
      have hb1 := b1.toNat_lt
      by_cases h1 : (decide (b1 < lo) || decide (hi < b1)) = true
      · rw [if_pos h1] at h
        exact err h
      rw [if_neg h1] at h
      by_cases h2 : k = 2
      · rw [if_pos h2] at h
        cases h
        simp only [byte_lt, Bool.or_eq_true, decide_eq_true_eq, UInt8.reduceToNat] at h1
        have hr : 0xC2 ≤ b.toNat ∧ b.toNat < 0xE0 ∧ 0x80 ≤ b1.toNat ∧ b1.toNat ≤ 0xBF := by
          unfold utf8First at hf
          simp only [byte_lt, byte_eq_iff, UInt8.reduceToNat] at hf
          split_ifs at hf <;> simp only [Option.some.injEq, Prod.mk.injEq, reduceCtorEq] at hf
          all_goals (obtain ⟨e1, rfl, rfl⟩ := hf; simp only [UInt8.reduceToNat] at h1; omega)
        refine ⟨by unfold Scalar; omega, ?_⟩
        rw [utf8, if_neg (by omega), if_pos (by omega), byte_eq (b := b) (by omega), byte_eq (b := b1) (by omega)]
        rfl
      · rw [if_neg h2] at h
        split at h
        · rename_i b2 t
          have hb2 := b2.toNat_lt
          by_cases h3 : (decide (b2 < 128) || decide (191 < b2)) = true
          · rw [if_pos h3] at h
            exact err h
          rw [if_neg h3] at h
          by_cases h4 : k = 3
          · rw [if_pos h4] at h
            cases h
            simp only [byte_lt, Bool.or_eq_true, decide_eq_true_eq, UInt8.reduceToNat] at h1 h3
            have hr : 0xE0 ≤ b.toNat ∧ b.toNat < 0xF0 ∧ 0x80 ≤ b1.toNat ∧ b1.toNat ≤ 0xBF ∧ (b.toNat = 0xE0 → 0xA0 ≤ b1.toNat) ∧ (b.toNat = 0xED → b1.toNat ≤ 0x9F) := by
              unfold utf8First at hf
              simp only [byte_lt, byte_eq_iff, UInt8.reduceToNat] at hf
              split_ifs at hf <;> simp only [Option.some.injEq, Prod.mk.injEq, reduceCtorEq] at hf
              all_goals (obtain ⟨e1, rfl, rfl⟩ := hf; simp only [UInt8.reduceToNat] at h1; omega)
            refine ⟨by unfold Scalar; omega, ?_⟩
            rw [utf8, if_neg (by omega), if_neg (by omega), if_pos (by omega), byte_eq (b := b) (by omega), byte_eq (b := b1) (by omega), byte_eq (b := b2) (by omega)]
            rfl
          · rw [if_neg h4] at h
            split at h
            · rename_i b3 t
              have hb3 := b3.toNat_lt
              split_ifs at h with h5
              · exact err h
              · cases h
                simp only [byte_lt, Bool.or_eq_true, decide_eq_true_eq, UInt8.reduceToNat] at h1 h3 h5
                have hr : 0xF0 ≤ b.toNat ∧ b.toNat ≤ 0xF4 ∧ 0x80 ≤ b1.toNat ∧ b1.toNat ≤ 0xBF ∧ (b.toNat = 0xF0 → 0x90 ≤ b1.toNat) ∧ (b.toNat = 0xF4 → b1.toNat ≤ 0x8F) := by
                  unfold utf8First at hf
                  simp only [byte_lt, byte_eq_iff, UInt8.reduceToNat] at hf
                  split_ifs at hf <;> simp only [Option.some.injEq, Prod.mk.injEq, reduceCtorEq] at hf
                  all_goals (obtain ⟨e1, rfl, rfl⟩ := hf; simp only [UInt8.reduceToNat] at h1; omega)
                refine ⟨by unfold Scalar; omega, ?_⟩
                rw [utf8, if_neg (by omega), if_neg (by omega), if_neg (by omega), byte_eq (b := b) (by omega), byte_eq (b := b1) (by omega), byte_eq (b := b2) (by omega), byte_eq (b := b3) (by omega)]
                rfl
            · exact err h
        · exact err h
    · exact err h

/-- What Go cannot decode does not start with a character. -/
theorem decodeRune_none {b : UInt8} {t : Str} (h : decodeRune (b :: t) = (0xFFFD, 1)) : readChar (b :: t) = none := by
  by_contra hn
  obtain ⟨⟨c, r⟩, hs⟩ := Option.ne_none_iff_exists'.1 hn
  obtain ⟨h1, h2⟩ := readChar_some hs
  rw [h2, decodeRune_utf8 h1] at h
  obtain ⟨rfl, h3⟩ := Prod.mk.inj h
  revert h3
  decide +kernel

end GoMetrics
