import Verif.Model.LibratoClient
import Verif.Spec.Json

/-! Posting to Librato: one post. -/

namespace GoMetrics
open Spec

variable {F : Type} [GoFloat F]

theorem notNumberBits_iff (b : FloatBits) : notNumberBits b = true ↔ b.toNat / 2 ^ 52 % 2 ^ 11 = 2 ^ 11 - 1 := by
  have h1 : ((b >>> 52) &&& 0x7FF).toNat = b.toNat / 2 ^ 52 % 2 ^ 11 := by
    rw [UInt64.toNat_and, UInt64.toNat_shiftRight]
    rw [show (0x7FF : UInt64).toNat = 2 ^ 11 - 1 from rfl, Nat.and_two_pow_sub_one_eq_mod, Nat.shiftRight_eq_div_pow]
    rfl
  rw [notNumberBits, beq_iff_eq, ← UInt64.toNat_inj, h1]
  rfl

theorem notNumberField_iff (v : Field F) : notNumberField v = false ↔ representable v := by
  cases v with
  | float x =>
    simp only [notNumberField, notNumber, representable, maxFloat64, Bool.or_eq_false_iff, Bool.not_eq_false']
    tauto
  | bits b => simp only [notNumberField, representable, Bool.eq_false_iff, Ne, notNumberBits_iff]
  | _ => simp [notNumberField, representable]

theorem any_notNumber (l : List (Field F)) : l.any notNumberField = false ↔ ∀ v ∈ l, representable v := by
  simp only [List.any_eq_false, Bool.not_eq_true]
  exact forall_congr' fun v => forall_congr' fun _ => notNumberField_iff v

variable [GoSqrt F] [GoExp F]

/-- The log only grows, and everything posted before stays. -/
theorem libratoRun_append (cfg : Reporter F) (g : Reg) (text : Batch F → Str) (a b : List (LibratoTick F)) : ∀ (w : World F) (s : HttpS) (log : List (Option PostErr)), libratoRun cfg g text (a ++ b) w s log =
    match libratoRun cfg g text a w s log with
    | (w', s', log', none) => libratoRun cfg g text b w' s' log'
    | x => x := by
  induction a with
  | nil => intro w s log; rfl
  | cons t a ih =>
    intro w s log
    simp only [List.cons_append, libratoRun]
    rcases libratoRound t.env cfg g text t.now t.answer (w.run t.before) s with ⟨w', s', r⟩
    cases r with
    | ok e => exact ih _ _ _
    | error p => rfl

end GoMetrics
