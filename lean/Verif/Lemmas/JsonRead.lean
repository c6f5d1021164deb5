import Verif.Go.Json
import Verif.Lemmas.Utf8
import Verif.Lemmas.F64
import Verif.Lemmas.Wire
import Verif.Spec.Json

/-! What `encoding/json` writes is read back by a JSON parser. -/

namespace GoMetrics
open Spec

/-! ### Strings -/

theorem hex_read {n : Nat} (h : n < 16) : hexValue (hexDigit n) = some n := by
  have : ∀ n : Fin 16, hexValue (hexDigit n) = some n.1 := by decide +kernel
  exact this ⟨n, h⟩

private theorem ascii_utf8 {b : UInt8} (h : b < 0x80) : utf8 b.toNat = [b] ∧ Scalar b.toNat := by
  rw [UInt8.lt_iff_toNat_lt] at h
  simp only [UInt8.reduceToNat] at h
  refine ⟨?_, .inl (by omega)⟩
  rw [utf8, if_pos h, byte_eq rfl]

theorem readChar_ascii {b : UInt8} (h : b < 0x80) (t : Str) : readChar (b :: t) = some (b.toNat, t) := by
  obtain ⟨h1, h2⟩ := ascii_utf8 h
  have := readChar_utf8 h2 t
  rwa [h1] at this

private theorem escape_read (short : Bool) {b : UInt8} (h : b < 0x80) : ∃ e, escapeByte short b = 92 :: e ∧ ∀ X, readEscape (e ++ X) = some (b.toNat, X) := by
  rw [UInt8.lt_iff_toNat_lt] at h
  simp only [UInt8.reduceToNat] at h
  unfold escapeByte
  split_ifs with h1 h2 h3 h4 h5 h6
  · rcases h1 with rfl | rfl <;> exact ⟨_, rfl, fun X => rfl⟩
  · obtain ⟨-, rfl⟩ := h2; exact ⟨_, rfl, fun X => rfl⟩
  · obtain ⟨-, rfl⟩ := h3; exact ⟨_, rfl, fun X => rfl⟩
  · subst h4; exact ⟨_, rfl, fun X => rfl⟩
  · subst h5; exact ⟨_, rfl, fun X => rfl⟩
  · subst h6; exact ⟨_, rfl, fun X => rfl⟩
  · refine ⟨_, rfl, fun X => ?_⟩
    have e0 : hexValue 48 = some 0 := by decide
    simp only [List.cons_append, List.nil_append, readEscape, readHex4, e0, hex_read (show b.toNat / 16 < 16 by omega), hex_read (show b.toNat % 16 < 16 by omega), Option.bind_eq_bind, Option.bind_some,
      Option.pure_def]
    rw [if_pos (by omega)]
    congr 2
    omega

theorem quoteBody_read (short : Bool) (n : Nat) : ∀ (s rest : Str) (fuel : Nat), (quoteBody short n s ++ 34 :: rest).length ≤ fuel →
    readChars fuel (quoteBody short n s ++ 34 :: rest) = some (charsFuel n s, rest) := by
  have done : ∀ (rest : Str) (fuel : Nat), (34 :: rest).length ≤ fuel → readChars fuel (34 :: rest) = some ([], rest) := by
    intro rest fuel h
    obtain ⟨fuel, rfl⟩ : ∃ f, fuel = f + 1 := ⟨fuel - 1, by simp at h; omega⟩
    simp [readChars]
  have esc : ∀ (e X : Str) (c : Nat) (fuel : Nat) (cs : List Nat) (rest : Str), (∀ X, readEscape (e ++ X) = some (c, X)) → (92 :: e ++ X).length ≤ fuel →
      (∀ fuel, X.length ≤ fuel → readChars fuel X = some (cs, rest)) → readChars fuel (92 :: e ++ X) = some (c :: cs, rest) := by
    intro e X c fuel cs rest h1 h2 h3
    obtain ⟨fuel, rfl⟩ : ∃ f, fuel = f + 1 := ⟨fuel - 1, by simp at h2; omega⟩
    have h4 : X.length ≤ fuel := by simp at h2; omega
    simp only [List.cons_append, readChars, if_neg (show ¬ (92 : UInt8) = 34 by decide), if_true, h1, h3 fuel h4, Option.bind_eq_bind, Option.bind_some, Option.pure_def]
  have raw : ∀ (b : UInt8) (X Y : Str) (c : Nat) (fuel : Nat) (cs : List Nat) (rest : Str), b ≠ 34 → b ≠ 92 → ¬ b < 32 → readChar (b :: X) = some (c, Y) → (b :: X).length ≤ fuel → Y.length ≤ X.length →
      (∀ fuel, Y.length ≤ fuel → readChars fuel Y = some (cs, rest)) → readChars fuel (b :: X) = some (c :: cs, rest) := by
    intro b X Y c fuel cs rest h1 h2 h3 h4 h5 h6 h7
    obtain ⟨fuel, rfl⟩ : ∃ f, fuel = f + 1 := ⟨fuel - 1, by simp at h5; omega⟩
    have h8 : Y.length ≤ fuel := by simp at h5; omega
    simp only [readChars, if_neg h1, if_neg h2, if_neg h3, h4, h7 fuel h8, Option.bind_eq_bind, Option.bind_some, Option.pure_def]
  induction n with
  | zero =>
    intro s rest fuel h
    simp only [quoteBody, List.nil_append, charsFuel] at h ⊢
    exact done rest fuel h
  | succ n ih =>
    intro s rest fuel h
    cases s with
    | nil =>
      simp only [quoteBody, List.nil_append, charsFuel] at h ⊢
      exact done rest fuel h
    | cons b t =>
      rw [quoteBody] at h ⊢
      by_cases hb : b < 0x80
      · simp only [if_pos hb, List.append_assoc] at h ⊢
        simp only [charsFuel, readChar_ascii hb]
        by_cases hs : htmlSafe b = true
        · simp only [if_pos hs, List.cons_append, List.nil_append] at h ⊢
          simp only [htmlSafe, Bool.and_eq_true, decide_eq_true_eq, bne_iff_ne, ne_eq] at hs
          obtain ⟨⟨⟨⟨⟨h1, h2⟩, h3⟩, -⟩, -⟩, -⟩ := hs
          exact raw b _ _ _ fuel _ _ h2 h3 (by simpa using h1) (readChar_ascii hb _) h (by simp) (fun f hf => ih t rest f hf)
        · simp only [if_neg hs] at h ⊢
          obtain ⟨e, h1, h2⟩ := escape_read short hb
          rw [h1] at h ⊢
          exact esc e _ _ fuel _ _ h2 h (fun f hf => ih t rest f hf)
      · simp only [if_neg hb] at h ⊢
        generalize hd : decodeRune (b :: t) = x at h ⊢
        obtain ⟨c, size⟩ := x
        simp only at h ⊢
        by_cases he : c = 0xFFFD ∧ size = 1
        · simp only [if_pos he, List.append_assoc] at h ⊢
          obtain ⟨rfl, rfl⟩ := he
          simp only [charsFuel, decodeRune_none hd]
          exact esc [117, 102, 102, 102, 100] _ _ fuel _ _ (fun X => by
            simp only [List.cons_append, List.nil_append, readEscape, readHex4, show hexValue 102 = some 15 by decide, show hexValue 100 = some 13 by decide, Option.bind_eq_bind, Option.bind_some,
              Option.pure_def]
            rfl) h (fun f hf => ih t rest f hf)
        · obtain ⟨h1, h2, h3⟩ := decodeRune_some hd he
          have h4 : readChar (b :: t) = some (c, (b :: t).drop size) := by
            conv_lhs => rw [h2]
            exact readChar_utf8 h1 _
          simp only [charsFuel, h4]
          simp only [if_neg he] at h ⊢
          by_cases hl : c = 0x2028 ∨ c = 0x2029
          · simp only [if_pos hl, List.append_assoc, List.cons_append] at h ⊢
            refine esc [117, 50, 48, 50, hexDigit (c % 16)] _ _ fuel _ _ (fun X => ?_) h (fun f hf => ih _ rest f hf)
            have hc : c / 16 = 0x202 := by omega
            simp only [List.cons_append, List.nil_append, readEscape, readHex4, show hexValue 50 = some 2 by decide, show hexValue 48 = some 0 by decide, hex_read (show c % 16 < 16 by omega),
              Option.bind_eq_bind, Option.bind_some, Option.pure_def]
            rw [if_pos (by omega)]
            congr 2
            omega
          · simp only [if_neg hl, List.append_assoc] at h ⊢
            rw [h3] at h ⊢
            obtain ⟨b', t', hu⟩ := utf8_cons c
            have hbb : b' = b := by
              rw [hu] at h2
              exact (List.cons.inj h2).1.symm
            subst hbb
            have hc := readChar_utf8 h1 (quoteBody short n ((b' :: t).drop size) ++ 34 :: rest)
            rw [hu] at h hc ⊢
            have hbn : 128 ≤ b'.toNat := by
              rw [UInt8.lt_iff_toNat_lt] at hb
              simpa using hb
            have ne : ∀ x : UInt8, x.toNat < 128 → b' ≠ x := by
              rintro x hx rfl
              omega
            refine raw b' _ _ c fuel _ _ (ne _ (by decide)) (ne _ (by decide)) ?_ hc h (by simp) (fun f hf => ih _ rest f hf)
            rw [UInt8.lt_iff_toNat_lt]
            simp only [UInt8.reduceToNat]
            omega

/-! ### Numbers -/

theorem AllDigits.isDec {s : Str} (h : AllDigits s) : ∀ b ∈ s, isDec b = true := by
  intro b hb
  have := h b hb
  simp [Spec.isDec, this.1, this.2]

private theorem digits_read {ds rest : Str} (h1 : ds ≠ []) (h2 : AllDigits ds) (h3 : ∀ b t, rest = b :: t → isDec b = false) : someDigits (ds ++ rest) = some (ds, rest) := by
  have e1 : rest.takeWhile isDec = [] := by
    cases rest with
    | nil => rfl
    | cons b t => simp [List.takeWhile, h3 b t rfl]
  have e2 : rest.dropWhile isDec = rest := by
    cases rest with
    | nil => rfl
    | cons b t => simp [List.dropWhile, h3 b t rfl]
  simp only [someDigits, List.takeWhile_append_of_pos h2.isDec, List.dropWhile_append_of_pos h2.isDec, e1, e2, List.append_nil, if_neg h1]

private theorem decValue_eq (s : Str) : decValue s = valFrom 0 s := rfl

/-- An integer without unnecessary zeros. -/
def IntText (ds : Str) : Prop := ds ≠ [] ∧ AllDigits ds ∧ (ds.head? = some 48 → ds = [48])

private theorem intPart_read {ds rest : Str} (h : IntText ds) (h3 : ∀ b t, rest = b :: t → isDec b = false) : readIntPart (ds ++ rest) = some (valFrom 0 ds, rest) := by
  obtain ⟨h1, h2, h4⟩ := h
  simp only [readIntPart, digits_read h1 h2 h3, Option.bind_eq_bind, Option.bind_some, Option.pure_def]
  rw [if_neg (by rintro ⟨h5, h6⟩; exact h6 (h4 h5))]
  rfl

private theorem append_head (fuel : Nat) : ∀ (n : Nat) (acc : Str), 0 < n → n < 10 ^ (fuel + 1) → ∃ b s, appendDigits (fuel + 1) n acc = b :: s ∧ b ≠ 48 := by
  have hd : ∀ n, 0 < n → n < 10 → digit n ≠ 48 := by
    intro n h1 h2 h
    have := digit_toNat h2
    rw [h] at this
    simp at this
    omega
  induction fuel with
  | zero =>
    intro n acc h1 h2
    have h2 : n < 10 := by simpa using h2
    exact ⟨_, _, by rw [appendDigits, if_pos h2], hd n h1 h2⟩
  | succ fuel ih =>
    intro n acc h1 h2
    rw [appendDigits]
    split
    · rename_i h
      exact ⟨_, _, rfl, hd n h1 h⟩
    · exact ih _ _ (by omega) (by rw [pow_succ] at h2; omega)

theorem dec_intText (n : Nat) : IntText (decDigits n) := by
  obtain ⟨h1, h2, -⟩ := decDigits_spec n
  refine ⟨h1, h2, fun h => ?_⟩
  rcases Nat.eq_zero_or_pos n with rfl | hn
  · decide
  · obtain ⟨b, s, h3, h4⟩ := append_head n.log2 n [] hn (lt_of_lt_of_le Nat.lt_log2_self (Nat.pow_le_pow_left (by omega) _))
    rw [decDigits, h3] at h
    simp at h
    exact absurd h h4

private theorem frac_none {rest : Str} (h : ∀ b t, rest = b :: t → b ≠ 46) : readFrac rest = some (0, rest) := by
  unfold readFrac
  split
  · rename_i s; exact absurd rfl (h _ _ rfl)
  · rfl

private theorem exp_none {rest : Str} (h : ∀ b t, rest = b :: t → b ≠ 101 ∧ b ≠ 69) : readExp rest = some (0, rest) := by
  unfold readExp
  split
  · rename_i b s
    have := h b s rfl
    rw [if_neg (by tauto)]
  · rfl

/-- A plain integer. -/
theorem unsigned_int {ds rest : Str} (h : IntText ds) (hr : Delim rest) : readUnsigned (ds ++ rest) = some ((valFrom 0 ds : ℚ), rest) := by
  simp only [readUnsigned, intPart_read h fun b t e => (hr b t e).1, frac_none fun b t e => (hr b t e).2.1, exp_none fun b t e => (hr b t e).2.2, Option.bind_eq_bind, Option.bind_some, Option.pure_def]
  simp

/-- With a fraction. -/
theorem unsigned_frac {ds fs rest : Str} (h : IntText ds) (h1 : fs ≠ []) (h2 : AllDigits fs) (hr : Delim rest) :
    readUnsigned (ds ++ 46 :: fs ++ rest) = some ((valFrom 0 ds : ℚ) + valFrom 0 fs / 10 ^ fs.length, rest) := by
  have e : ds ++ 46 :: fs ++ rest = ds ++ 46 :: (fs ++ rest) := by simp
  rw [e]
  have h3 : readIntPart (ds ++ 46 :: (fs ++ rest)) = some (valFrom 0 ds, 46 :: (fs ++ rest)) := intPart_read h (by rintro b t ⟨⟩; decide)
  simp only [readUnsigned, h3, readFrac, digits_read h1 h2 fun b t e => (hr b t e).1, exp_none fun b t e => (hr b t e).2.2, Option.bind_eq_bind, Option.bind_some, Option.pure_def, decValue_eq]
  simp

/-- With an exponent. -/
theorem exp_read {xs rest : Str} (neg : Bool) (h1 : xs ≠ []) (h2 : AllDigits xs) (hr : Delim rest) :
    readExp (101 :: (if neg then 45 else 43) :: xs ++ rest) = some (if neg then -(valFrom 0 xs : Int) else valFrom 0 xs, rest) := by
  cases neg <;> simp [readExp, digits_read h1 h2 fun b t e => (hr b t e).1, decValue_eq]

theorem unsigned_exp {ds xs rest : Str} (neg : Bool) (h : IntText ds) (h1 : xs ≠ []) (h2 : AllDigits xs) (hr : Delim rest) :
    readUnsigned (ds ++ 101 :: (if neg then 45 else 43) :: xs ++ rest) = some ((valFrom 0 ds : ℚ) * 10 ^ (if neg then -(valFrom 0 xs : Int) else valFrom 0 xs), rest) := by
  have h3 : readIntPart (ds ++ (101 :: (if neg then 45 else 43) :: xs ++ rest)) = some (valFrom 0 ds, 101 :: (if neg then 45 else 43) :: xs ++ rest) := intPart_read h (by rintro b t ⟨⟩; decide)
  rw [List.append_assoc]
  simp only [readUnsigned, h3, Option.bind_eq_bind, Option.bind_some, Option.pure_def]
  rw [frac_none (by rintro b t ⟨⟩; decide)]
  simp only [Option.bind_some, exp_read neg h1 h2 hr]
  simp

theorem unsigned_frac_exp {ds fs xs rest : Str} (neg : Bool) (h : IntText ds) (h1 : fs ≠ []) (h2 : AllDigits fs) (h3 : xs ≠ []) (h4 : AllDigits xs) (hr : Delim rest) :
    readUnsigned (ds ++ 46 :: fs ++ 101 :: (if neg then 45 else 43) :: xs ++ rest) =
      some (((valFrom 0 ds : ℚ) + valFrom 0 fs / 10 ^ fs.length) * 10 ^ (if neg then -(valFrom 0 xs : Int) else valFrom 0 xs), rest) := by
  have e : ds ++ 46 :: fs ++ 101 :: (if neg then 45 else 43) :: xs ++ rest = ds ++ 46 :: (fs ++ (101 :: (if neg then 45 else 43) :: xs ++ rest)) := by simp
  rw [e]
  have h5 : readIntPart (ds ++ 46 :: (fs ++ (101 :: (if neg then 45 else 43) :: xs ++ rest))) = some (valFrom 0 ds, 46 :: (fs ++ (101 :: (if neg then 45 else 43) :: xs ++ rest))) :=
    intPart_read h (by rintro b t ⟨⟩; decide)
  simp only [readUnsigned, h5, readFrac, Option.bind_eq_bind, Option.bind_some, Option.pure_def]
  rw [digits_read h1 h2 (by rintro b t ⟨⟩; decide)]
  simp only [Option.bind_some, exp_read neg h3 h4 hr, decValue_eq]

theorem valFrom_zeros (n e : Nat) : valFrom n (List.replicate e 48) = n * 10 ^ e := by
  induction e generalizing n with
  | zero => simp [valFrom]
  | succ e ih =>
    rw [List.replicate_succ, show (48 : UInt8) :: List.replicate e 48 = [48] ++ List.replicate e 48 from rfl, valFrom_append, ih, show valFrom n [48] = 10 * n by simp [valFrom]]
    ring

theorem valFrom_shift (n : Nat) (s : Str) : valFrom n s = n * 10 ^ s.length + valFrom 0 s := by
  induction s generalizing n with
  | nil => simp [valFrom]
  | cons b s ih =>
    have e : ∀ n, valFrom n (b :: s) = valFrom (10 * n + (b.toNat - 48)) s := fun n => rfl
    rw [e, e, ih, ih (10 * 0 + (b.toNat - 48)), List.length_cons, pow_succ]
    ring

theorem fixedForm_read {m : Nat} (hm : 0 < m) (e : Int) {rest : Str} (hr : Delim rest) : readUnsigned (fixedForm m e ++ rest) = some ((m : ℚ) * 10 ^ e, rest) := by
  obtain ⟨h1, h2, h3⟩ := decDigits_spec m
  obtain ⟨-, -, hz⟩ := dec_intText m
  have hh : (decDigits m).head? ≠ some 48 := by
    intro h
    have := hz h
    rw [this] at h3
    simp [valFrom] at h3
    omega
  unfold fixedForm
  split_ifs with he
  · have hi : IntText (decDigits m ++ List.replicate e.toNat 48) := by
      refine ⟨by simp [h1], ?_, ?_⟩
      · intro b hb
        rcases List.mem_append.1 hb with hb | hb
        · exact h2 b hb
        · rw [List.eq_of_mem_replicate hb]; decide
      · intro h
        rw [List.head?_append_of_ne_nil _ h1] at h
        exact absurd h hh
    rw [unsigned_int hi hr, valFrom_append, h3, valFrom_zeros]
    have : (10 : ℚ) ^ e = 10 ^ e.toNat := by
      conv_lhs => rw [← Int.toNat_of_nonneg he]
      exact zpow_natCast _ _
    rw [this]
    push_cast
    rfl
  · obtain ⟨h4, h5, h6⟩ := fracDigits_spec (-e).toNat m
    have h7 : fracDigits (-e).toNat m ≠ [] := by intro hx; rw [hx] at h4; simp at h4; omega
    rw [unsigned_frac (dec_intText _) h7 h5 hr, (decDigits_spec _).2.2, h6, h4]
    congr 2
    generalize hk : (-e).toNat = k
    have he2 : e = -(k : Int) := by omega
    rw [he2, zpow_neg, zpow_natCast]
    have hm : (m : ℚ) = (10 : ℚ) ^ k * ((m / 10 ^ k : ℕ) : ℚ) + ((m % 10 ^ k : ℕ) : ℚ) := by
      have := Nat.div_add_mod m (10 ^ k)
      exact_mod_cast this.symm
    rw [hm]
    field_simp

theorem expForm_read (two : Bool) {m : Nat} (e : Int) {rest : Str} (hr : Delim rest) : readUnsigned (expForm two m e ++ rest) = some ((m : ℚ) * 10 ^ e, rest) := by
  obtain ⟨h1, h2, h3⟩ := decDigits_spec m
  unfold expForm
  generalize decDigits m = ds at *
  obtain ⟨d, t, rfl⟩ := List.exists_cons_of_ne_nil h1
  have hi : IntText [d] := ⟨by simp, fun b hb => h2 b (by simp at hb; simp [hb]), by simp⟩
  have ht : AllDigits t := fun b hb => h2 b (by simp [hb])
  have hl : (((d :: t).length : Int) - 1 + e) = t.length + e := by simp
  simp only [hl]
  have hv : (m : ℚ) = valFrom 0 [d] * 10 ^ t.length + valFrom 0 t := by
    rw [← h3, show d :: t = [d] ++ t from rfl, valFrom_append, valFrom_shift]
    push_cast
    rfl
  generalize hx : (t.length : Int) + e = x
  have hxs : ∀ xs, xs = (if two ∧ x.natAbs < 10 then [48] else []) ++ decDigits x.natAbs → xs ≠ [] ∧ AllDigits xs ∧ valFrom 0 xs = x.natAbs := by
    rintro xs rfl
    obtain ⟨g1, g2, g3⟩ := decDigits_spec x.natAbs
    refine ⟨by simp [g1], ?_, ?_⟩
    · intro b hb
      rcases List.mem_append.1 hb with hb | hb
      · split_ifs at hb
        · simp at hb; subst hb; decide
        · simp at hb
      · exact g2 b hb
    · rw [valFrom_append]
      split_ifs
      · exact g3
      · exact g3
  obtain ⟨g1, g2, g3⟩ := hxs _ rfl
  have hp : (if decide (x < 0) = true then -((x.natAbs : Nat) : Int) else (x.natAbs : Nat)) = x := by
    by_cases h : x < 0
    · rw [if_pos (by simpa using h)]; omega
    · rw [if_neg (by simpa using h)]; omega
  have hsign : (if x < 0 then (45 : UInt8) else 43) = if decide (x < 0) = true then 45 else 43 := by simp
  have h10 : (10 : ℚ) ≠ 0 := by norm_num
  by_cases ht0 : t = []
  · subst ht0
    have := unsigned_exp (decide (x < 0)) hi g1 g2 hr
    rw [g3, hp, ← hsign] at this
    have hx' : e = x := by simpa using hx
    have hm' : (m : ℚ) = valFrom 0 [d] := by rw [h3]
    rw [hx', hm']
    convert this using 2
    simp
  · have := unsigned_frac_exp (decide (x < 0)) hi ht0 ht g1 g2 hr
    rw [g3, hp, ← hsign] at this
    have hne : ¬ (d :: t).length = 1 := by simpa using ht0
    simp only [if_neg hne, List.take, List.drop]
    convert this using 2
    · simp
    · rw [hv, ← hx, zpow_add₀ h10, zpow_natCast]
      field_simp

theorem readNum_int (z : Int) {rest : Str} (hr : Delim rest) : readNum (fmtInt z ++ rest) = some ((z : ℚ), rest) := by
  have hu := unsigned_int (dec_intText z.natAbs) hr
  rw [(decDigits_spec _).2.2] at hu
  unfold fmtInt
  split_ifs with h
  · simp only [List.cons_append, readNum, hu, Option.bind_eq_bind, Option.bind_some, Option.pure_def]
    have : (z : ℚ) = -(z.natAbs : ℚ) := by
      have : z = -(z.natAbs : Int) := by omega
      exact_mod_cast this
    rw [this]
  · have : (z : ℚ) = (z.natAbs : ℚ) := by
      have : z = (z.natAbs : Int) := by omega
      conv_lhs => rw [this]
      exact Int.cast_natCast _
    rw [this, ← hu]
    obtain ⟨b, t, hd⟩ := List.exists_cons_of_ne_nil (dec_intText z.natAbs).1
    have := (dec_intText z.natAbs).2.1 b (by simp [hd])
    rw [hd, List.cons_append]
    unfold readNum
    split
    · rename_i h; cases h; exact absurd this (by decide)
    · rfl

/-- The text of a number starts with a digit. -/
private theorem unsigned_head {s : Str} {q r} (h : readUnsigned s = some (q, r)) : ∃ b t, s = b :: t ∧ isDec b = true := by
  cases s with
  | nil => simp [readUnsigned, readIntPart, someDigits] at h
  | cons b t =>
    refine ⟨b, t, rfl, ?_⟩
    by_contra hb
    rw [Bool.not_eq_true] at hb
    simp [readUnsigned, readIntPart, someDigits, List.takeWhile, hb] at h

theorem readNum_unsigned {s : Str} {q r} (h : readUnsigned s = some (q, r)) : readNum s = some (q, r) := by
  obtain ⟨b, t, rfl, hb⟩ := unsigned_head h
  unfold readNum
  split
  · rename_i e; cases e; exact absurd hb (by decide)
  · exact h

theorem F64.round_neg_eq {x y : ℚ} (h : F64.round x = F64.round y) : F64.round (-x) = F64.round (-y) := by
  have key : ∀ x : ℚ, F64.round (-x) = GoFloat.neg (F64.round x) := by
    intro x
    have hp : 0 < F64.overflowAt := lt_trans (by norm_num) (F64.pow_lt_overflowAt (n := 53) (by norm_num))
    unfold F64.round
    rw [rnd_neg]
    split_ifs with h1 h2 h3 h4 h5
    all_goals first | rfl | (exfalso; linarith)
  rw [key, key, h]

theorem jsonAbs_read (sh : Shortest) {q : ℚ} (hq : 0 ≤ q) : ∃ r : ℚ, F64.round r = F64.round q ∧ ∀ rest, Delim rest → readUnsigned (jsonAbs sh q ++ rest) = some (r, rest) := by
  unfold jsonAbs
  by_cases h0 : q = 0
  · rw [if_pos h0]
    subst h0
    refine ⟨0, rfl, fun rest hr => ?_⟩
    have := unsigned_int (dec_intText 0) hr
    rw [show decDigits 0 = [48] by decide] at this
    simpa [valFrom] using this
  · rw [if_neg h0]
    have hp : 0 < q := lt_of_le_of_ne hq (Ne.symm h0)
    refine ⟨_, sh.reads q hp, fun rest hr => ?_⟩
    have hm := sh.pos q hp
    generalize sh.digits q = d at hm ⊢
    obtain ⟨m, e⟩ := d
    simp only at hm ⊢
    split_ifs
    · exact expForm_read _ e hr
    · exact fixedForm_read hm e hr

theorem jsonFloat_read (sh : Shortest) (q : ℚ) : ∃ r : ℚ, F64.round r = F64.round q ∧ ∀ rest, Delim rest → readNum (jsonFloat sh (.fin q) ++ rest) = some (r, rest) := by
  simp only [jsonFloat]
  split_ifs with h
  · obtain ⟨r, h1, h2⟩ := jsonAbs_read sh (q := -q) (by linarith)
    refine ⟨-r, by rw [F64.round_neg_eq h1, neg_neg], fun rest hr => ?_⟩
    simp only [List.cons_append, readNum, h2 rest hr, Option.bind_eq_bind, Option.bind_some, Option.pure_def]
  · obtain ⟨r, h1, h2⟩ := jsonAbs_read sh (q := q) (by linarith)
    exact ⟨r, h1, fun rest hr => readNum_unsigned (h2 rest hr)⟩

/-! ### Values -/

private theorem readNum_head {s : Str} {q r} (h : readNum s = some (q, r)) : ∃ b t, s = b :: t ∧ (isDec b = true ∨ b = 45) := by
  unfold readNum at h
  split at h
  · exact ⟨_, _, rfl, .inr rfl⟩
  · obtain ⟨b, t, h1, h2⟩ := unsigned_head h
    exact ⟨b, t, h1, .inl h2⟩

theorem skipWs_cons {b : UInt8} (h : (b == 32 || b == 9 || b == 10 || b == 13) = false) (t : Str) : skipWs (b :: t) = b :: t := by
  simp only [skipWs, List.dropWhile, h]

theorem readAs_num {text : Str} {q : ℚ} (h : ∀ rest, Delim rest → readNum (text ++ rest) = some (q, rest)) : ReadAs text (.num q) := by
  intro n rest hr hn
  have hx := h rest hr
  obtain ⟨b, t, h1, h2⟩ := readNum_head hx
  obtain ⟨_, _, h3, -⟩ := readNum_head (h [] (by rintro _ _ ⟨⟩))
  rw [List.append_nil] at h3
  obtain ⟨n, rfl⟩ : ∃ m, n = m + 1 := ⟨n - 1, by rw [h3] at hn; simp at hn; omega⟩
  rw [h1] at hx ⊢
  have hb : ∀ x : UInt8, isDec x = false → x ≠ 45 → b ≠ x := by
    rintro x g1 g2 rfl
    rcases h2 with h2 | h2
    · rw [g1] at h2; simp at h2
    · exact g2 h2
  have hs : skipWs (b :: t) = b :: t := skipWs_cons (by
    simp only [Bool.or_eq_false_iff, beq_eq_false_iff_ne]
    exact ⟨⟨⟨hb _ (by decide) (by decide), hb _ (by decide) (by decide)⟩, hb _ (by decide) (by decide)⟩, hb _ (by decide) (by decide)⟩) t
  rw [readValue, hs]
  split
  all_goals first
    | (rename_i e; exact absurd (List.cons.inj e).1 (hb _ (by decide) (by decide)))
    | (simp only [hx, Option.bind_eq_bind, Option.bind_some, Option.pure_def])

theorem readAs_null : ReadAs [110, 117, 108, 108] .null := by
  intro n rest hr hn
  obtain ⟨n, rfl⟩ : ∃ m, n = m + 1 := ⟨n - 1, by simp at hn; omega⟩
  rw [readValue, show [110, 117, 108, 108] ++ rest = (110 : UInt8) :: 117 :: 108 :: 108 :: rest from rfl, skipWs_cons (by decide)]
  rfl

theorem readAs_str (short : Bool) (s : Str) : ReadAs (jsonQuote short s) (.str (chars s)) := by
  intro n rest hr hn
  obtain ⟨n, rfl⟩ : ∃ m, n = m + 1 := ⟨n - 1, by simp [jsonQuote] at hn; omega⟩
  have e : jsonQuote short s ++ rest = 34 :: (quoteBody short s.length s ++ 34 :: rest) := by simp [jsonQuote]
  rw [e, readValue, skipWs_cons (by decide)]
  simp only [quoteBody_read short s.length s rest _ le_rfl, Option.bind_eq_bind, Option.bind_some, Option.pure_def]
  rfl

/-! ### Objects -/

theorem delim_of {b : UInt8} (t : Str) (h : isDec b = false) (h1 : b ≠ 46) (h2 : b ≠ 101) (h3 : b ≠ 69) : Delim (b :: t) := by
  rintro b' t' e
  cases e
  exact ⟨h, h1, h2, h3⟩

private theorem members_read (short : Bool) (ms : List (Str × Str × Json)) : ∀ m : Str × Str × Json, (∀ x ∈ m :: ms, ReadAs x.2.1 x.2.2) → ∀ n rest,
    (jsonQuote short m.1 ++ 58 :: m.2.1 ++ (ms.map fun m : Str × Str × Json => [44] ++ (jsonQuote short m.1 ++ 58 :: m.2.1)).flatten ++ [125]).length ≤ n →
    readMembers n (jsonQuote short m.1 ++ 58 :: m.2.1 ++ (ms.map fun m : Str × Str × Json => [44] ++ (jsonQuote short m.1 ++ 58 :: m.2.1)).flatten ++ 125 :: rest) =
      some ((m :: ms).map fun m => (chars m.1, m.2.2), rest) := by
  induction ms with
  | nil =>
    intro m hm n rest hn
    simp only [List.map_nil, List.flatten_nil, List.append_nil] at hn ⊢
    have e : jsonQuote short m.1 ++ 58 :: m.2.1 ++ 125 :: rest = 34 :: (quoteBody short m.1.length m.1 ++ 34 :: (58 :: (m.2.1 ++ 125 :: rest))) := by simp [jsonQuote]
    rw [e]
    simp only [jsonQuote, List.length_append, List.length_cons, List.length_nil] at hn
    obtain ⟨n, rfl⟩ : ∃ m, n = m + 1 := ⟨n - 1, by omega⟩
    have hv := hm m (by simp) n (125 :: rest) (delim_of _ (by decide) (by decide) (by decide) (by decide)) (by omega)
    rw [readMembers, skipWs_cons (by decide)]
    simp only [quoteBody_read short m.1.length m.1 _ _ le_rfl, Option.bind_eq_bind, Option.bind_some, Option.pure_def, skipWs_cons (show ((58 : UInt8) == 32 || (58 : UInt8) == 9 || (58 : UInt8) == 10 || (58 : UInt8) == 13) = false by decide),
      hv, skipWs_cons (show ((125 : UInt8) == 32 || (125 : UInt8) == 9 || (125 : UInt8) == 10 || (125 : UInt8) == 13) = false by decide)]
    rfl
  | cons m2 ms ih =>
    intro m hm n rest hn
    obtain ⟨more, hmore⟩ : ∃ more, more = jsonQuote short m2.1 ++ 58 :: m2.2.1 ++ (ms.map fun m : Str × Str × Json => [44] ++ (jsonQuote short m.1 ++ 58 :: m.2.1)).flatten ++ 125 :: rest := ⟨_, rfl⟩
    have e : jsonQuote short m.1 ++ 58 :: m.2.1 ++ ((m2 :: ms).map fun m : Str × Str × Json => [44] ++ (jsonQuote short m.1 ++ 58 :: m.2.1)).flatten ++ 125 :: rest =
        34 :: (quoteBody short m.1.length m.1 ++ 34 :: (58 :: (m.2.1 ++ 44 :: more))) := by rw [hmore]; simp [jsonQuote]
    rw [e]
    rw [List.map_cons, List.flatten_cons] at hn
    have hn' : (34 :: (quoteBody short m.1.length m.1 ++ 34 :: (58 :: (m.2.1 ++ 44 :: (jsonQuote short m2.1 ++ 58 :: m2.2.1 ++
        (ms.map fun m : Str × Str × Json => [44] ++ (jsonQuote short m.1 ++ 58 :: m.2.1)).flatten ++ [125]))))).length ≤ n := by
      refine le_trans (le_of_eq ?_) hn
      congr 1
      simp [jsonQuote]
    clear hn
    simp only [List.length_cons, List.length_append (as := quoteBody short m.1.length m.1), List.length_append (as := m.2.1)] at hn'
    obtain ⟨n, rfl⟩ : ∃ m, n = m + 1 := ⟨n - 1, by omega⟩
    have hv := hm m (by simp) n (44 :: more) (delim_of _ (by decide) (by decide) (by decide) (by decide)) (by omega)
    have hi := ih m2 (fun x hx => hm x (by simp at hx ⊢; tauto)) n rest (by omega)
    rw [← hmore] at hi
    rw [readMembers, skipWs_cons (by decide)]
    simp only [quoteBody_read short m.1.length m.1 _ _ le_rfl, Option.bind_eq_bind, Option.bind_some, Option.pure_def, skipWs_cons (show ((58 : UInt8) == 32 || (58 : UInt8) == 9 || (58 : UInt8) == 10 || (58 : UInt8) == 13) = false by decide),
      hv, skipWs_cons (show ((44 : UInt8) == 32 || (44 : UInt8) == 9 || (44 : UInt8) == 10 || (44 : UInt8) == 13) = false by decide), hi]
    rfl

theorem intercalate_cons (s x : Str) (xs : List Str) : List.intercalate s (x :: xs) = x ++ (xs.map (s ++ ·)).flatten := by
  induction xs generalizing x with
  | nil => simp [List.intercalate]
  | cons y ys ih =>
    have : List.intercalate s (x :: y :: ys) = x ++ (s ++ List.intercalate s (y :: ys)) := by simp [List.intercalate, List.intersperse]
    rw [this, ih]
    simp

theorem readAs_obj (short : Bool) (ms : List (Str × Str × Json)) (h : ∀ x ∈ ms, ReadAs x.2.1 x.2.2) :
    ReadAs (jsonObject (jsonQuote short) (ms.map fun m => (m.1, m.2.1))) (.obj (ms.map fun m => (chars m.1, m.2.2))) := by
  intro n rest hr hn
  obtain ⟨n, rfl⟩ : ∃ m, n = m + 1 := ⟨n - 1, by simp [jsonObject] at hn; omega⟩
  cases ms with
  | nil =>
    rw [readValue, show jsonObject (jsonQuote short) (([] : List (Str × Str × Json)).map fun m => (m.1, m.2.1)) ++ rest = 123 :: 125 :: rest from rfl, skipWs_cons (by decide)]
    simp only [skipWs_cons (show ((125 : UInt8) == 32 || (125 : UInt8) == 9 || (125 : UInt8) == 10 || (125 : UInt8) == 13) = false by decide)]
    rfl
  | cons m ms =>
    have e : jsonObject (jsonQuote short) ((m :: ms).map fun m => (m.1, m.2.1)) ++ rest =
        123 :: (jsonQuote short m.1 ++ 58 :: m.2.1 ++ (ms.map fun m : Str × Str × Json => [44] ++ (jsonQuote short m.1 ++ 58 :: m.2.1)).flatten ++ 125 :: rest) := by
      simp [jsonObject, intercalate_cons, Function.comp_def]
    rw [e]
    have e' : jsonObject (jsonQuote short) ((m :: ms).map fun m => (m.1, m.2.1)) =
        123 :: (jsonQuote short m.1 ++ 58 :: m.2.1 ++ (ms.map fun m : Str × Str × Json => [44] ++ (jsonQuote short m.1 ++ 58 :: m.2.1)).flatten ++ [125]) := by
      simp [jsonObject, intercalate_cons, Function.comp_def]
    rw [e', List.length_cons] at hn
    have hm := members_read short ms m h n rest (by omega)
    rw [readValue, skipWs_cons (by decide)]
    generalize hx : jsonQuote short m.1 ++ 58 :: m.2.1 ++ (ms.map fun m : Str × Str × Json => [44] ++ (jsonQuote short m.1 ++ 58 :: m.2.1)).flatten ++ 125 :: rest = x at hm ⊢
    have hs : ∃ y, skipWs x = 34 :: y ∧ x = 34 :: y := by
      rw [← hx, jsonQuote, List.cons_append, List.cons_append, List.cons_append]
      exact ⟨_, skipWs_cons (by decide) _, rfl⟩
    obtain ⟨y, hy, rfl⟩ := hs
    simp only [hy]
    split
    · rename_i e; cases e
    · simp only [hm, Option.bind_eq_bind, Option.bind_some, Option.pure_def]

/-- The text of a value, alone or followed by white space. -/
theorem readJson_of {text : Str} {j : Json} (h : ReadAs text j) : readJson text = some j ∧ readJson (text ++ [10]) = some j := by
  constructor
  · have := h text.length [] (by rintro b t ⟨⟩) (by simp)
    rw [List.append_nil] at this
    simp [readJson, this, skipWs]
  · have := h (text ++ [10]).length [10] (delim_of _ (by decide) (by decide) (by decide) (by decide)) (by simp)
    unfold readJson
    rw [this]
    rfl

/-! ### Characters -/

theorem chars_utf8 (cs : List Nat) (h : ∀ c ∈ cs, Scalar c) : ∀ n, (utf8Text cs).length ≤ n → charsFuel n (utf8Text cs) = cs := by
  induction cs with
  | nil => intro n _; cases n <;> rfl
  | cons c cs ih =>
    intro n hn
    have e : utf8Text (c :: cs) = utf8 c ++ utf8Text cs := rfl
    have hl := readChar_utf8 (h c (by simp)) (utf8Text cs)
    obtain ⟨b, t, hu⟩ := utf8_cons c
    rw [e, hu] at hn ⊢
    rw [hu] at hl
    obtain ⟨n, rfl⟩ : ∃ m, n = m + 1 := ⟨n - 1, by simp at hn; omega⟩
    rw [List.cons_append] at hl ⊢
    rw [charsFuel, hl]
    simp only
    rw [ih (fun c hc => h c (by simp [hc])) n (by simp at hn; omega)]

theorem ofBits_round {b : FloatBits} {q : ℚ} (h : F64.ofBits b = .fin q) : F64.round q = .fin q := by
  have key : ∀ (s : Bool) (m : ℕ) (e : ℤ), m < 2 ^ 53 → -1074 ≤ e → e ≤ 971 → F64.round ((if s then -1 else 1) * (m : ℚ) * 2 ^ e) = .fin ((if s then -1 else 1) * (m : ℚ) * 2 ^ e) := by
    intro s m e h1 h2 h3
    refine F64.round_rep ?_
    rw [F64.representable_iff]
    have hs : (if s then -1 else 1) * (m : ℚ) = (((if s then -1 else 1) * (m : ℤ) : ℤ) : ℚ) := by cases s <;> simp
    have ha : |(if s then -1 else 1) * (m : ℤ)| = m := by cases s <;> simp
    rw [hs]
    refine ⟨rnd_dyadic _ e (by rw [ha]; omega) h2, ?_⟩
    rw [← abs_lt, abs_mul, abs_of_pos (show (0 : ℚ) < 2 ^ e by positivity), ← Int.cast_abs, ha]
    have h4 : ((m : ℤ) : ℚ) < 2 ^ 53 := by exact_mod_cast h1
    have h5 : (2 : ℚ) ^ e ≤ 2 ^ (971 : ℤ) := zpow_le_zpow_right₀ (by norm_num) h3
    have h6 : (2 : ℚ) ^ 53 * 2 ^ (971 : ℤ) = F64.overflowAt := by
      unfold F64.overflowAt
      have : ∀ a b : ℕ, (2 : ℚ) ^ a * 2 ^ (b : ℤ) = 2 ^ (a + b) := fun a b => by rw [zpow_natCast, pow_add]
      exact this 53 971
    calc ((m : ℤ) : ℚ) * 2 ^ e ≤ ((m : ℤ) : ℚ) * 2 ^ (971 : ℤ) := mul_le_mul_of_nonneg_left h5 (by simp)
      _ < 2 ^ 53 * 2 ^ (971 : ℤ) := mul_lt_mul_of_pos_right h4 (by positivity)
      _ = F64.overflowAt := h6
  have hf : b.toNat % 2 ^ 52 < 2 ^ 52 := Nat.mod_lt _ (by positivity)
  have he : b.toNat / 2 ^ 52 % 2 ^ 11 < 2 ^ 11 := Nat.mod_lt _ (by positivity)
  simp only [F64.ofBits] at h
  generalize b.toNat % 2 ^ 52 = f at h hf
  generalize b.toNat / 2 ^ 52 % 2 ^ 11 = e at h he
  generalize decide (2 ^ 63 ≤ b.toNat) = neg at h
  by_cases h1 : e = 2047
  · rw [if_pos h1] at h
    split_ifs at h
  · rw [if_neg h1] at h
    by_cases h2 : e = 0
    · rw [if_pos h2, F64.fin.injEq] at h
      have := key neg f (-1074) (by omega) (by norm_num) (by norm_num)
      rwa [h] at this
    · rw [if_neg h2, F64.fin.injEq] at h
      have := key neg (2 ^ 52 + f) ((e : ℤ) - 1075) (by omega) (by omega) (by omega)
      rw [show ((2 ^ 52 + f : ℕ) : ℚ) = 2 ^ 52 + (f : ℚ) by rw [Nat.cast_add, Nat.cast_pow]; rfl, h] at this
      exact this

theorem member_one {l : List (List Nat × Json)} (hn : (l.map Prod.fst).Nodup) {k : List Nat} {v : Json} (h : (k, v) ∈ l) : Json.member k (.obj l) = [v] := by
  have none : ∀ l : List (List Nat × Json), k ∉ l.map Prod.fst → (l.filter fun m => m.1 == k).map Prod.snd = [] := by
    intro l hl
    rw [List.map_eq_nil_iff, List.filter_eq_nil_iff]
    intro x hx e
    exact hl (List.mem_map.2 ⟨x, hx, by simpa using e⟩)
  show (l.filter fun m => m.1 == k).map Prod.snd = [v]
  induction l with
  | nil => simp at h
  | cons x l ih =>
    simp only [List.map_cons, List.nodup_cons] at hn
    rcases List.mem_cons.1 h with rfl | h
    · rw [List.filter_cons_of_pos (by simp), List.map_cons, none l hn.1]
    · have hx : ¬ (x.1 == k) = true := by
        intro e
        rw [beq_iff_eq] at e
        exact hn.1 (List.mem_map.2 ⟨(k, v), h, e.symm⟩)
      rw [List.filter_cons, if_neg hx]
      exact ih hn.2 h

theorem member_none {l : List (List Nat × Json)} {k : List Nat} (h : k ∉ l.map Prod.fst) : Json.member k (.obj l) = [] := by
  show (l.filter fun m => m.1 == k).map Prod.snd = []
  rw [List.map_eq_nil_iff, List.filter_eq_nil_iff]
  intro x hx e
  exact h (List.mem_map.2 ⟨x, hx, by simpa using e⟩)

theorem chars_text {cs : List Nat} (h : ∀ c ∈ cs, Scalar c) : chars (utf8Text cs) = cs := chars_utf8 cs h _ le_rfl

end GoMetrics
