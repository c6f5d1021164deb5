import Verif.Lemmas.JsonRead
import Verif.Model.ExpvarText
import Verif.Spec.ExpvarText

/-! Reading the response of the expvar handler. -/

namespace GoMetrics
open Spec

/-! ### Names -/

theorem safe_cons {pr : Nat → Bool} {s r : Str} {c : Nat} (h : readChar s = some (c, r)) : SafeName pr s ↔ JsonSafe pr c ∧ SafeName pr r := by
  obtain ⟨hc, rfl⟩ := readChar_some h
  constructor
  · rintro ⟨cs, h1, h2⟩
    cases cs with
    | nil =>
      obtain ⟨b, t, hu⟩ := utf8_cons c
      rw [hu] at h2
      simp [utf8Text] at h2
    | cons d cs =>
      have e : utf8Text (d :: cs) = utf8 d ++ utf8Text cs := rfl
      rw [h2, e, readChar_utf8 (h1 d (by simp)).1] at h
      cases h
      exact ⟨(h1 _ (by simp)).2, cs, fun x hx => h1 x (by simp [hx]), rfl⟩
  · rintro ⟨h1, cs, h2, rfl⟩
    exact ⟨c :: cs, by rintro x hx; rcases List.mem_cons.1 hx with rfl | hx; exacts [⟨hc, h1⟩, h2 x hx], rfl⟩

theorem safe_none {pr : Nat → Bool} {b : UInt8} {t : Str} (h : readChar (b :: t) = none) : ¬ SafeName pr (b :: t) := by
  rintro ⟨cs, h1, h2⟩
  cases cs with
  | nil => simp [utf8Text] at h2
  | cons d cs =>
    have e : utf8Text (d :: cs) = utf8 d ++ utf8Text cs := rfl
    rw [h2, e, readChar_utf8 (h1 d (by simp)).1] at h
    simp at h

private theorem esc_step {e X : Str} {c fuel : Nat} (h1 : ∀ X, readEscape (e ++ X) = some (c, X)) (h2 : (92 :: e ++ X).length ≤ fuel + 1) :
    readChars (fuel + 1) (92 :: e ++ X) = (readChars fuel X).map fun y => (c :: y.1, y.2) := by
  simp only [List.cons_append, readChars, if_neg (show ¬ (92 : UInt8) = 34 by decide), if_true, h1, Option.bind_eq_bind, Option.bind_some, Option.pure_def]
  rcases readChars fuel X with _ | ⟨cs, s⟩ <;> rfl

private theorem esc_bad {e : Str} {fuel : Nat} (h1 : readEscape e = none) : readChars fuel (92 :: e) = none := by
  cases fuel with
  | zero => rfl
  | succ fuel => simp only [readChars, if_neg (show ¬ (92 : UInt8) = 34 by decide), if_true, h1, Option.bind_eq_bind, Option.bind_none]

/-- The escape of a character is read as the character, or not at all. -/
theorem goEscape_read {pr : Printer} {c : Nat} (hc : Scalar c) (hp : pr.isPrint c = false) (hq : c ≠ 34 ∧ c ≠ 92) : ∃ e, goEscape c = 92 :: e ∧
    (JsonSafe pr.isPrint c → ∀ X, readEscape (e ++ X) = some (c, X)) ∧ (¬ JsonSafe pr.isPrint c → ∀ X, readEscape (e ++ X) = none) := by
  have ha : ¬ (32 ≤ c ∧ c < 127) := by
    rintro ⟨h1, h2⟩
    rw [pr.ascii c (by omega)] at hp
    simp [h1, h2] at hp
  unfold goEscape JsonSafe
  split_ifs with h1 h2 h3 h4 h5 h6 h7 h8 h9
  · subst h1; exact ⟨_, rfl, by rintro (h | h) <;> omega, fun _ X => rfl⟩
  · subst h2; exact ⟨_, rfl, fun _ X => rfl, fun h => absurd (by simp) h⟩
  · subst h3; exact ⟨_, rfl, fun _ X => rfl, fun h => absurd (by simp) h⟩
  · subst h4; exact ⟨_, rfl, fun _ X => rfl, fun h => absurd (by simp) h⟩
  · subst h5; exact ⟨_, rfl, fun _ X => rfl, fun h => absurd (by simp) h⟩
  · subst h6; exact ⟨_, rfl, fun _ X => rfl, fun h => absurd (by simp) h⟩
  · subst h7; exact ⟨_, rfl, by rintro (h | h) <;> omega, fun _ X => rfl⟩
  · exact ⟨_, rfl, by rintro (h | h) <;> omega, fun _ X => rfl⟩
  · refine ⟨[117, hexDigit (c / 4096 % 16), hexDigit (c / 256 % 16), hexDigit (c / 16 % 16), hexDigit (c % 16)], rfl, fun _ X => ?_, fun h => absurd (.inl ⟨by omega, by omega, .inl h9⟩) h⟩
    simp only [List.cons_append, List.nil_append, readEscape, readHex4, hex_read (show c / 4096 % 16 < 16 by omega), hex_read (show c / 256 % 16 < 16 by omega), hex_read (show c / 16 % 16 < 16 by omega),
      hex_read (show c % 16 < 16 by omega), Option.bind_eq_bind, Option.bind_some, Option.pure_def]
    have e : c / 4096 % 16 * 4096 + c / 256 % 16 * 256 + c / 16 % 16 * 16 + c % 16 = c := by omega
    rw [e, if_pos (by rcases hc with h | h <;> omega)]
  · refine ⟨_, rfl, ?_, fun _ X => rfl⟩
    rintro (⟨-, -, h | h⟩ | h)
    · omega
    · rw [hp] at h; simp at h
    · omega

theorem goQuoteBody_read (pr : Printer) (n : Nat) : ∀ (s rest : Str) (fuel : Nat), s.length ≤ n → (goQuoteBody pr n s ++ 34 :: rest).length ≤ fuel →
    (SafeName pr.isPrint s → readChars fuel (goQuoteBody pr n s ++ 34 :: rest) = some (charsFuel n s, rest)) ∧
    (¬ SafeName pr.isPrint s → readChars fuel (goQuoteBody pr n s ++ 34 :: rest) = none) := by
  have done : ∀ (rest : Str) (fuel : Nat), (34 :: rest).length ≤ fuel → readChars fuel (34 :: rest) = some ([], rest) := by
    intro rest fuel h
    obtain ⟨fuel, rfl⟩ : ∃ f, fuel = f + 1 := ⟨fuel - 1, by simp at h; omega⟩
    simp [readChars]
  have safe_nil : SafeName pr.isPrint [] := ⟨[], by simp, rfl⟩
  induction n with
  | zero =>
    intro s rest fuel hs h
    obtain rfl : s = [] := List.eq_nil_of_length_eq_zero (by omega)
    simp only [goQuoteBody, List.nil_append, charsFuel] at h ⊢
    exact ⟨fun _ => done rest fuel h, fun hn => absurd safe_nil hn⟩
  | succ n ih =>
    intro s rest fuel hs h
    cases s with
    | nil =>
      simp only [goQuoteBody, List.nil_append, charsFuel] at h ⊢
      exact ⟨fun _ => done rest fuel h, fun hn => absurd safe_nil hn⟩
    | cons b t =>
      -- One character: what is decoded, and how the rest goes on.
      have key : ∀ c size, (c, size) = (if b < 0x80 then (b.toNat, 1) else decodeRune (b :: t)) → ¬ (c = 0xFFFD ∧ size = 1) →
          Scalar c ∧ readChar (b :: t) = some (c, (b :: t).drop size) ∧ (b :: t).take size = utf8 c ∧ ((b :: t).drop size).length ≤ n := by
        intro c size e hne
        by_cases hb : b < 0x80
        · rw [if_pos hb] at e
          cases e
          have hr := readChar_ascii hb t
          obtain ⟨h1, h2⟩ := readChar_some hr
          refine ⟨h1, hr, ?_, by simpa using hs⟩
          have : utf8 b.toNat ++ t = [b] ++ t := h2.symm
          exact (List.append_cancel_right this).symm
        · rw [if_neg hb] at e
          obtain ⟨h1, h2, h3⟩ := decodeRune_some e.symm hne
          have hr : readChar (b :: t) = some (c, (b :: t).drop size) := by
            conv_lhs => rw [h2]
            exact readChar_utf8 h1 _
          refine ⟨h1, hr, h3, ?_⟩
          obtain ⟨b', t', hu⟩ := utf8_cons c
          have := congrArg List.length h2
          rw [hu] at this
          simp only [List.length_append, List.length_cons] at this hs
          omega
      rw [goQuoteBody] at h ⊢
      generalize hd : (if b < 0x80 then (b.toNat, 1) else decodeRune (b :: t)) = x at h key ⊢
      obtain ⟨c, size⟩ := x
      simp only at h ⊢
      by_cases he : c = 0xFFFD ∧ size = 1
      · have hb : ¬ b < 0x80 := by
          intro hb
          rw [if_pos hb] at hd
          cases hd
          rw [UInt8.lt_iff_toNat_lt] at hb
          simp at hb
          omega
        rw [if_neg hb] at hd
        obtain ⟨rfl, rfl⟩ := he
        refine ⟨fun hsafe => absurd hsafe (safe_none (decodeRune_none hd)), fun _ => ?_⟩
        rw [if_pos ⟨rfl, rfl⟩]
        exact esc_bad rfl
      · obtain ⟨hc, hr, ht, hl⟩ := key c size rfl he
        rw [if_neg he] at h ⊢
        rw [safe_cons hr]
        simp only [charsFuel, hr]
        generalize hX : goQuoteBody pr n ((b :: t).drop size) = X at h ⊢
        have again := ih ((b :: t).drop size) rest
        rw [hX] at again
        rw [List.append_assoc] at h ⊢
        obtain ⟨fuel, rfl⟩ : ∃ f, fuel = f + 1 := ⟨fuel - 1, by simp at h; omega⟩
        -- A step that reads the character.
        have step : ∀ Y : Str, readChars (fuel + 1) Y = (readChars fuel (X ++ 34 :: rest)).map (fun y => (c :: y.1, y.2)) → (X ++ 34 :: rest).length ≤ fuel → JsonSafe pr.isPrint c →
            (JsonSafe pr.isPrint c ∧ SafeName pr.isPrint ((b :: t).drop size) → readChars (fuel + 1) Y = some (c :: charsFuel n ((b :: t).drop size), rest)) ∧
            (¬ (JsonSafe pr.isPrint c ∧ SafeName pr.isPrint ((b :: t).drop size)) → readChars (fuel + 1) Y = none) := by
          intro Y hY hf hsafe
          obtain ⟨r1, r2⟩ := again fuel hl hf
          constructor
          · rintro ⟨-, h2⟩
            rw [hY, r1 h2]
            rfl
          · intro h2
            rw [hY, r2 fun h3 => h2 ⟨hsafe, h3⟩]
            rfl
        by_cases hq : c = 34 ∨ c = 92
        · rw [if_pos hq] at h ⊢
          have hbc : c = b.toNat := by
            by_cases hb : b < 0x80
            · rw [if_pos hb] at hd
              exact (Prod.mk.inj hd).1.symm
            · exfalso
              have : utf8 c = [UInt8.ofNat c] := by rw [utf8, if_pos (by omega)]
              have hh := (readChar_some hr).2
              rw [this] at hh
              have := (List.cons.inj hh).1
              rw [UInt8.lt_iff_toNat_lt, this] at hb
              rcases hq with rfl | rfl <;> simp at hb
          have hs : JsonSafe pr.isPrint c := by rcases hq with rfl | rfl <;> exact .inl ⟨by decide, by decide, .inl (by decide)⟩
          have hf : (X ++ 34 :: rest).length ≤ fuel := by simp at h ⊢; omega
          refine step _ (esc_step (e := [b]) (c := c) (fun X => ?_) h) hf hs
          have : b = 34 ∨ b = 92 := by
            rcases hq with hq | hq
            · left; apply UInt8.toNat_inj.1; rw [← hbc, hq]; rfl
            · right; apply UInt8.toNat_inj.1; rw [← hbc, hq]; rfl
          rw [hbc]
          rcases this with rfl | rfl <;> rfl
        · rw [if_neg hq] at h ⊢
          rw [not_or] at hq
          cases hp : pr.isPrint c with
          | true =>
            simp only [hp, if_true] at h ⊢
            rw [ht] at h ⊢
            obtain ⟨b', t', hu⟩ := utf8_cons c
            have hcc := readChar_utf8 hc (X ++ 34 :: rest)
            have h32 : 32 ≤ c ∧ c ≠ 127 := by
              by_cases h128 : c < 128
              · rw [pr.ascii c h128] at hp
                simp at hp
                omega
              · omega
            have hb' : b' ≠ 34 ∧ b' ≠ 92 ∧ ¬ b' < 32 := by
              by_cases h128 : c < 128
              · rw [utf8, if_pos h128] at hu
                have : b' = UInt8.ofNat c := (List.cons.inj hu).1.symm
                have hn : b'.toNat = c := by rw [this]; exact UInt8.toNat_ofNat_of_lt' (show c < 256 by omega)
                refine ⟨fun e => hq.1 (by rw [← hn, e]; rfl), fun e => hq.2 (by rw [← hn, e]; rfl), ?_⟩
                rw [UInt8.lt_iff_toNat_lt, hn]
                simp only [UInt8.reduceToNat]
                omega
              · have hge : 128 ≤ b'.toNat := by
                  by_contra hlt
                  have hlt' : b' < 0x80 := by rw [UInt8.lt_iff_toNat_lt]; simp only [UInt8.reduceToNat]; omega
                  have h1 := readChar_ascii hlt' (t' ++ (X ++ 34 :: rest))
                  rw [hu, List.cons_append, h1] at hcc
                  have := (Prod.mk.inj (Option.some.inj hcc)).1
                  omega
                have ne : ∀ x : UInt8, x.toNat < 128 → b' ≠ x := by
                  rintro x hx rfl
                  omega
                refine ⟨ne _ (by decide), ne _ (by decide), ?_⟩
                rw [UInt8.lt_iff_toNat_lt]
                simp only [UInt8.reduceToNat]
                omega
            rw [hu] at h hcc ⊢
            refine step _ ?_ (by simp at h ⊢; omega) (.inl ⟨h32.1, h32.2, .inr hp⟩)
            rw [List.cons_append] at hcc ⊢
            simp only [readChars, if_neg hb'.1, if_neg hb'.2.1, if_neg hb'.2.2, hcc, Option.bind_eq_bind, Option.bind_some, Option.pure_def]
            rcases readChars fuel (X ++ 34 :: rest) with _ | ⟨cs, s⟩ <;> rfl
          | false =>
            simp only [hp, Bool.false_eq_true, if_false] at h ⊢
            obtain ⟨e, he1, he2, he3⟩ := goEscape_read (pr := pr) hc hp hq
            rw [he1] at h ⊢
            by_cases hsafe : JsonSafe pr.isPrint c
            · exact step _ (esc_step (he2 hsafe) h) (by simp at h ⊢; omega) hsafe
            · refine ⟨fun h => absurd h.1 hsafe, fun _ => ?_⟩
              rw [List.cons_append]
              exact esc_bad (he3 hsafe _)

/-! ### Values -/

theorem gAbs_read (sh : Shortest) {q : ℚ} (hq : 0 ≤ q) : ∃ r : ℚ, F64.round r = F64.round q ∧ ∀ rest, Delim rest → readUnsigned (gAbs sh q ++ rest) = some (r, rest) := by
  unfold gAbs
  by_cases h0 : q = 0
  · rw [if_pos h0]
    subst h0
    refine ⟨0, rfl, fun rest hr => ?_⟩
    have := unsigned_int (dec_intText 0) hr
    rw [show decDigits 0 = [48] by decide] at this
    simpa [valFrom] using this
  · rw [if_neg h0]
    have hp : 0 < q := lt_of_le_of_ne hq (Ne.symm h0)
    refine ⟨_, sh.reads q hp, fun rest hr => ?_⟩
    have hm := sh.pos q hp
    generalize sh.digits q = d at hm ⊢
    obtain ⟨m, e⟩ := d
    simp only at hm ⊢
    split_ifs
    · exact expForm_read _ e hr
    · exact fixedForm_read hm e hr

theorem gFloat_read (sh : Shortest) (q : ℚ) : ∃ r : ℚ, F64.round r = F64.round q ∧ ∀ rest, Delim rest → readNum (gFloat sh (.fin q) ++ rest) = some (r, rest) := by
  simp only [gFloat]
  split_ifs with h
  · obtain ⟨r, h1, h2⟩ := gAbs_read sh (q := -q) (by linarith)
    refine ⟨-r, by rw [F64.round_neg_eq h1, neg_neg], fun rest hr => ?_⟩
    simp only [List.cons_append, readNum, h2 rest hr, Option.bind_eq_bind, Option.bind_some, Option.pure_def]
  · obtain ⟨r, h1, h2⟩ := gAbs_read sh (q := q) (by linarith)
    exact ⟨r, h1, fun rest hr => readNum_unsigned (h2 rest hr)⟩

/-- A text with which no value starts. -/
def NoValue (text : Str) : Prop := ∀ n rest, readValue n (text ++ rest) = none

private theorem noValue_of {text : Str} (h : ∀ n rest, readValue (n + 1) (text ++ rest) = none) : NoValue text := by
  intro n rest
  cases n with
  | zero => rw [readValue]
  | succ n => exact h n rest

theorem gFloat_bad (sh : Shortest) {x : F64} (h : ¬ ∃ q, x = .fin q) : NoValue (gFloat sh x) := by
  refine noValue_of fun n rest => ?_
  cases x with
  | nan => exact (by rw [readValue]; rfl : readValue (n + 1) (78 :: 97 :: 78 :: rest) = none)
  | inf b =>
    cases b
    · exact (by rw [readValue]; rfl : readValue (n + 1) (43 :: 73 :: 110 :: 102 :: rest) = none)
    · exact (by rw [readValue]; rfl : readValue (n + 1) (45 :: 73 :: 110 :: 102 :: rest) = none)
  | fin q => exact absurd ⟨q, rfl⟩ h

theorem question_bad : NoValue (bytes "?") := noValue_of fun n rest => (by rw [readValue]; rfl : readValue (n + 1) (63 :: rest) = none)

theorem readValue_space (n : Nat) (s : Str) : readValue n (32 :: s) = readValue n s := by
  cases n with
  | zero => simp only [readValue]
  | succ n => rw [readValue, readValue]; rfl

/-! ### The response -/

/-- An entry: the name, the text of the value, and the value, if the text is one. -/
def Sound (e : Str × Str × Option Json) : Prop := match e.2.2 with
  | some j => ReadAs e.2.1 j
  | none => NoValue e.2.1

def entryText (pr : Printer) (e : Str × Str × Option Json) : Str := goQuote pr e.1 ++ 58 :: 32 :: e.2.1

private theorem entry_read (pr : Printer) (e : Str × Str × Option Json) (he : Sound e) (n : Nat) (rest : Str) (hd : Delim rest) (hn : (entryText pr e ++ rest).length ≤ n + 1) (lead : Str) (hlead : skipWs (lead ++ entryText pr e ++ rest) = entryText pr e ++ rest) :
    (∀ j, SafeName pr.isPrint e.1 → e.2.2 = some j → readMembers (n + 1) (lead ++ entryText pr e ++ rest) =
      match skipWs rest with
      | 44 :: s => (readMembers n s).map fun y => ((chars e.1, j) :: y.1, y.2)
      | 125 :: s => some ([(chars e.1, j)], s)
      | _ => none) ∧
    (¬ (SafeName pr.isPrint e.1 ∧ e.2.2 ≠ none) → readMembers (n + 1) (lead ++ entryText pr e ++ rest) = none) := by
  rw [readMembers, hlead]
  have et : entryText pr e ++ rest = 34 :: (goQuoteBody pr e.1.length e.1 ++ 34 :: (58 :: 32 :: (e.2.1 ++ rest))) := by simp [entryText, goQuote]
  rw [et] at hn ⊢
  have hs58 : ∀ t : Str, skipWs (58 :: t) = 58 :: t := fun t => skipWs_cons (by decide) t
  obtain ⟨g1, g2⟩ := goQuoteBody_read pr e.1.length e.1 (58 :: 32 :: (e.2.1 ++ rest)) _ le_rfl le_rfl
  constructor
  · intro j h1 h2
    have hr : ReadAs e.2.1 j := by unfold Sound at he; rw [h2] at he; exact he
    have hv := hr n rest hd (by simp at hn ⊢; omega)
    simp only [g1 h1, Option.bind_eq_bind, Option.bind_some, Option.pure_def, hs58, readValue_space, hv]
    split
    · rename_i s hs
      simp only [hs]
      rcases readMembers n s with _ | ⟨l, s'⟩ <;> rfl
    · rename_i s hs
      simp only [hs]
      rfl
    · rename_i h44 h125
      split
      · rename_i s hs; exact absurd hs (h44 s)
      · rename_i s hs; exact absurd hs (h125 s)
      · rfl
  · intro h
    by_cases h1 : SafeName pr.isPrint e.1
    · have h2 : e.2.2 = none := by by_contra h2; exact h ⟨h1, h2⟩
      have hv : NoValue e.2.1 := by unfold Sound at he; rw [h2] at he; exact he
      simp only [g1 h1, Option.bind_eq_bind, Option.bind_some, Option.pure_def, hs58, readValue_space, hv n rest, Option.bind_none]
    · simp only [g2 h1, Option.bind_eq_bind, Option.bind_none]

private theorem entries_read (pr : Printer) (es : List (Str × Str × Option Json)) : ∀ (e : Str × Str × Option Json), (∀ x ∈ e :: es, Sound x) → ∀ (n : Nat) (rest lead : Str),
    (∀ t, skipWs (lead ++ 34 :: t) = 34 :: t) →
    (lead ++ entryText pr e ++ (es.map fun x : Str × Str × Option Json => [44, 10] ++ entryText pr x).flatten ++ 10 :: 125 :: rest).length ≤ n →
    ((∀ x ∈ e :: es, SafeName pr.isPrint x.1 ∧ x.2.2 ≠ none) →
      readMembers n (lead ++ entryText pr e ++ (es.map fun x : Str × Str × Option Json => [44, 10] ++ entryText pr x).flatten ++ 10 :: 125 :: rest) = some ((e :: es).map fun x => (chars x.1, x.2.2.getD .null), rest)) ∧
    (¬ (∀ x ∈ e :: es, SafeName pr.isPrint x.1 ∧ x.2.2 ≠ none) →
      readMembers n (lead ++ entryText pr e ++ (es.map fun x : Str × Str × Option Json => [44, 10] ++ entryText pr x).flatten ++ 10 :: 125 :: rest) = none) := by
  induction es with
  | nil =>
    intro e he n rest lead hl hn
    simp only [List.map_nil, List.flatten_nil, List.append_nil] at hn ⊢
    obtain ⟨n, rfl⟩ : ∃ m, n = m + 1 := ⟨n - 1, by simp at hn; omega⟩
    obtain ⟨h1, h2⟩ := entry_read pr e (he e (by simp)) n (10 :: 125 :: rest) (delim_of _ (by decide) (by decide) (by decide) (by decide)) (by simp at hn ⊢; omega) lead
      (by rw [List.append_assoc, entryText, goQuote]; simp only [List.cons_append]; exact hl _)
    constructor
    · intro hg
      obtain ⟨g1, g2⟩ := hg e (by simp)
      obtain ⟨j, hj⟩ := Option.ne_none_iff_exists'.1 g2
      rw [h1 j g1 hj, show skipWs (10 :: 125 :: rest) = 125 :: rest from rfl]
      simp [hj]
    · intro hg
      exact h2 fun h => hg (by simpa using h)
  | cons e2 es ih =>
    intro e he n rest lead hl hn
    obtain ⟨more, hmore⟩ : ∃ more, more = [10] ++ entryText pr e2 ++ (es.map fun x : Str × Str × Option Json => [44, 10] ++ entryText pr x).flatten ++ 10 :: 125 :: rest := ⟨_, rfl⟩
    have et : lead ++ entryText pr e ++ ((e2 :: es).map fun x : Str × Str × Option Json => [44, 10] ++ entryText pr x).flatten ++ 10 :: 125 :: rest = lead ++ entryText pr e ++ 44 :: more := by rw [hmore]; simp
    rw [et] at hn ⊢
    obtain ⟨n, rfl⟩ : ∃ m, n = m + 1 := ⟨n - 1, by simp at hn; omega⟩
    obtain ⟨h1, h2⟩ := entry_read pr e (he e (by simp)) n (44 :: more) (delim_of _ (by decide) (by decide) (by decide) (by decide)) (by simp at hn ⊢; omega) lead
      (by rw [List.append_assoc, entryText, goQuote]; simp only [List.cons_append]; exact hl _)
    obtain ⟨i1, i2⟩ := ih e2 (fun x hx => he x (by simp at hx ⊢; tauto)) n rest [10] (fun t => rfl) (by rw [← hmore]; simp at hn; omega)
    rw [← hmore] at i1 i2
    have hs44 : skipWs (44 :: more) = 44 :: more := skipWs_cons (by decide) more
    constructor
    · intro hg
      obtain ⟨g1, g2⟩ := hg e (by simp)
      obtain ⟨j, hj⟩ := Option.ne_none_iff_exists'.1 g2
      rw [h1 j g1 hj, hs44]
      simp only [i1 fun x hx => hg x (by simp at hx ⊢; tauto)]
      simp [hj]
    · intro hg
      by_cases he' : SafeName pr.isPrint e.1 ∧ e.2.2 ≠ none
      · obtain ⟨j, hj⟩ := Option.ne_none_iff_exists'.1 he'.2
        rw [h1 j he'.1 hj, hs44]
        simp only
        rw [i2 fun h => hg fun x hx => by
          rcases List.mem_cons.1 hx with rfl | hx
          · exact he'
          · exact h x hx]
        rfl
      · exact h2 he'

/-- The response: an object with the entries, if the names are safe and the texts are values, else no JSON. -/
theorem response_read (pr : Printer) (es : List (Str × Str × Option Json)) (hes : ∀ x ∈ es, Sound x) :
    ((∀ x ∈ es, SafeName pr.isPrint x.1 ∧ x.2.2 ≠ none) → readJson ([123, 10] ++ List.intercalate [44, 10] (es.map (entryText pr)) ++ [10, 125, 10]) = some (.obj (es.map fun x => (chars x.1, x.2.2.getD .null)))) ∧
    (¬ (∀ x ∈ es, SafeName pr.isPrint x.1 ∧ x.2.2 ≠ none) → readJson ([123, 10] ++ List.intercalate [44, 10] (es.map (entryText pr)) ++ [10, 125, 10]) = none) := by
  cases es with
  | nil =>
    refine ⟨fun _ => ?_, fun h => absurd (by simp) h⟩
    show readJson [123, 10, 10, 125, 10] = _
    rw [readJson, show ([123, 10, 10, 125, 10] : Str).length = 4 + 1 from rfl, readValue]
    rfl
  | cons e es =>
    have et : [123, 10] ++ List.intercalate [44, 10] ((e :: es).map (entryText pr)) ++ [10, 125, 10] = 123 :: ([10] ++ entryText pr e ++ (es.map fun x : Str × Str × Option Json => [44, 10] ++ entryText pr x).flatten ++ 10 :: 125 :: [10]) := by
      rw [List.map_cons, intercalate_cons]
      simp [Function.comp_def]
    rw [et]
    generalize hx : [10] ++ entryText pr e ++ (es.map fun x : Str × Str × Option Json => [44, 10] ++ entryText pr x).flatten ++ 10 :: 125 :: [10] = x
    obtain ⟨h1, h2⟩ := entries_read pr es e hes x.length [10] [10] (fun t => rfl) (by rw [hx])
    rw [hx] at h1 h2
    have hr : readValue (123 :: x).length (123 :: x) = (readMembers x.length (skipWs x)).map fun y => (.obj y.1, y.2) := by
      rw [List.length_cons, readValue, skipWs_cons (by decide)]
      have hs : ∃ y, skipWs x = 34 :: y := by
        rw [← hx, entryText, goQuote]
        exact ⟨_, rfl⟩
      obtain ⟨y, hy⟩ := hs
      simp only [hy]
      split
      · rename_i e; cases e
      · rcases readMembers x.length (34 :: y) with _ | ⟨l, s'⟩ <;> rfl
    have hws : readMembers x.length (skipWs x) = readMembers x.length x := by
      have hxx : ∃ y, x = 10 :: 34 :: y := by
        rw [← hx, entryText, goQuote]
        exact ⟨_, rfl⟩
      obtain ⟨y, rfl⟩ := hxx
      rw [show (10 :: 34 :: y : Str).length = y.length + 1 + 1 by simp, readMembers, readMembers]
      rfl
    rw [hws] at hr
    unfold readJson
    rw [hr]
    constructor
    · intro hg
      rw [h1 hg]
      rfl
    · intro hg
      rw [h2 hg]
      rfl

end GoMetrics
