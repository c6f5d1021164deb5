import Verif.Lemmas.Export
import Mathlib.Tactic.NormNum

/-! The blocks that the exporters print for one metric. -/

set_option linter.unusedSimpArgs false
set_option linter.unusedSectionVars false

namespace GoMetrics
open Spec

variable {F : Type} [GoFloat F] [GoSqrt F] [GoExp F]

theorem five_eq : (fivePercentiles : List F) = five := by
  have : ∀ a b : ℚ, a = b → (GoFloat.lit a : F) = GoFloat.lit b := by rintro a _ rfl; rfl
  simp only [fivePercentiles, five, this (5 / 10) (1 / 2) (by norm_num), this (75 / 100) (3 / 4) (by norm_num), this (95 / 100) (19 / 20) (by norm_num)]

theorem good_writer : GoodSwitch (writerSwitch : Obj F → Option (Case F)) := by
  refine ⟨fun o o' h => ?_, fun o c h => ?_, fun o c h => ?_⟩
  · cases o <;> cases o' <;> simp [Obj.ty] at h <;> rfl
  · cases o <;> simp [writerSwitch] at h <;> subst h <;> simp [fitsKind]
  · cases o <;> simp only [writerSwitch, Option.some.injEq, reduceCtorEq] at h <;> subst h <;> rfl

theorem good_log (du : F) (sfx : Str) : GoodSwitch (logSwitch du sfx) := by
  refine ⟨fun o o' h => ?_, fun o c h => ?_, fun o c h => ?_⟩
  · cases o <;> cases o' <;> simp [Obj.ty] at h <;> rfl
  · cases o <;> simp [logSwitch] at h <;> subst h <;> simp [fitsKind]
  · cases o <;> simp only [logSwitch, Option.some.injEq, reduceCtorEq] at h <;> subst h <;> rfl

theorem good_syslog : GoodSwitch (syslogSwitch : Obj F → Option (Case F)) := by
  refine ⟨fun o o' h => ?_, fun o c h => ?_, fun o c h => ?_⟩
  · cases o <;> cases o' <;> simp [Obj.ty] at h <;> rfl
  · cases o <;> simp [syslogSwitch] at h <;> subst h <;> simp [fitsKind]
  · cases o <;> simp only [syslogSwitch, Option.some.injEq, reduceCtorEq] at h <;> subst h <;> rfl

theorem good_openTSDB (cfg : OpenTSDBConfig) : GoodSwitch (openTSDBSwitch cfg : Obj F → Option (Case F)) := by
  refine ⟨fun o o' h => ?_, fun o c h => ?_, fun o c h => ?_⟩
  · cases o <;> cases o' <;> simp [Obj.ty] at h <;> rfl
  · cases o <;> simp [openTSDBSwitch] at h <;> subst h <;> simp [fitsKind]
  · cases o <;> simp only [openTSDBSwitch, Option.some.injEq, reduceCtorEq] at h <;> subst h <;> rfl

theorem good_stathat (key : Str) : GoodSwitch (stathatSwitch key : Obj F → Option (Case F)) := by
  refine ⟨fun o o' h => ?_, fun o c h => ?_, fun o c h => ?_⟩
  · cases o <;> cases o' <;> simp [Obj.ty] at h <;> rfl
  · cases o <;> simp [stathatSwitch] at h <;> subst h <;> simp [fitsKind]
  · cases o <;> simp only [stathatSwitch, Option.some.injEq, reduceCtorEq] at h <;> subst h <;> rfl

theorem good_graphite (cfg : GraphiteConfig F) : GoodSwitch (graphiteSwitch cfg) := by
  have hp : ∀ o : Obj F, ((graphitePercentiles cfg).all fun s => s.calls.all (readable o)) = true := by
    intro o
    rw [List.all_eq_true]
    intro s hs
    obtain ⟨x, -, rfl⟩ := List.mem_map.1 hs
    rfl
  refine ⟨fun o o' h => ?_, fun o c h => ?_, fun o c h => ?_⟩
  · cases o <;> cases o' <;> simp [Obj.ty] at h <;> rfl
  · cases o <;> simp [graphiteSwitch] at h <;> subst h <;> simp [fitsKind]
  · cases o <;> simp only [graphiteSwitch, Option.some.injEq, reduceCtorEq] at h <;> subst h <;> simp only [List.all_append, hp, Bool.and_true, Bool.true_and] <;> rfl

/-! ### Evaluation -/

theorem evs_eq {body : List (Stmt F)} {evs es : List (Event F)} {d : Stmt F → Res (Event F)} (h : List.Forall₂ (fun s e => d s = .ok e) body evs)
    (h' : body.map d = es.map .ok) : evs = es := by
  induction h generalizing es with
  | nil => cases es <;> simp_all
  | cons h1 _ ih =>
    cases es with
    | nil => simp at h'
    | cons e es =>
      simp only [List.map_cons, List.cons.injEq, h1, Except.ok.injEq] at h'
      rw [h'.1, ih h'.2]

/-- The verbs of writer.go. -/
def padVerb : GoMetrics.Field F → Str
  | .int _ => bytes "9d"
  | .float _ => bytes "12.2f"
  | .bits _ => bytes "f"
  | _ => bytes "v"

def padding : Nat → List Char → Str
  | n + 1, _ :: l => padding n l
  | 0, _ => []
  | n, [] => List.replicate n 32

def padLine (unit : Str) (row : String × GoMetrics.Field F) : Event F :=
  .print (textOf (bytes "  ") ++ (textOf (bytes row.1) ++ (textOf (bytes ": ") ++ (textOf (padding 11 row.1.toList) ++ .val (padVerb row.2) row.2 :: (textOf unit ++ textOf [10])))))

def header (name : Str) (o : Obj F) : Event F := .print (textOf (bytes (kindWord o)) ++ (textOf [32] ++ (textOf name ++ textOf [10])))

theorem padding_eq (n : Nat) (l : List Char) : padding n l = List.replicate (n - l.length) 32 := by
  induction l generalizing n with
  | nil => cases n <;> rfl
  | cons c l ih =>
    cases n with
    | zero => simp [padding]
    | succ n => rw [padding, ih]; simp

theorem padVerb_eq (v : GoMetrics.Field F) : ∃ width, IsWidth width ∧ padVerb v = width ++ verb v := by
  rcases v with _ | _ | _ | _ | _
  · exact ⟨bytes "9", by unfold IsWidth; decide, rfl⟩
  · exact ⟨[], by unfold IsWidth; decide, rfl⟩
  · exact ⟨bytes "12", by unfold IsWidth; decide, rfl⟩
  · exact ⟨[], by unfold IsWidth; decide, rfl⟩
  · exact ⟨[], by unfold IsWidth; decide, rfl⟩

theorem padded_of {o : Obj F} {name : Str} {unit : String → Str} {rows : List (String × GoMetrics.Field F)} {evs : List (Event F)}
    (h : evs = header name o :: rows.map fun row => padLine (unit row.1) row) : PaddedBlock unit name o rows evs := by
  refine ⟨_, h, ?_⟩
  induction rows generalizing evs with
  | nil => exact .nil
  | cons row rows ih =>
    obtain ⟨width, h1, h2⟩ := padVerb_eq row.2
    exact .cons ⟨11 - row.1.toList.length, width, h1, by simp only [padLine, padding_eq, h2]⟩ (ih rfl)

theorem complete_of {w : World F} {env : Env F} {r : Ref} {o : Obj F} {ps : List F} {conv : Call F → GoMetrics.Field F → GoMetrics.Field F}
    {rows : List (String × GoMetrics.Field F)} (h1 : (rows.map fun x => means o x.1) = (statsOf ps o).map some)
    (h2 : List.Forall₂ (fun c x => ∃ v, Holds w env r c v ∧ x.2 = conv c v) (statsOf ps o) rows) : Complete w env r o ps conv rows := by
  refine ⟨.of_eq h1, ?_⟩
  generalize statsOf ps o = l at h1 h2
  induction h2 with
  | nil => simp
  | @cons c x l rows h _ ih =>
    simp only [List.map_cons, List.cons.injEq] at h1
    intro y hy d hd
    rcases List.mem_cons.1 hy with rfl | hy
    · rw [h1.1] at hd; cases hd; exact h
    · exact ih h1.2 y hy d hd

theorem writer_block {w : World F} {env : Env F} {name : Str} {r : Ref} {o : Obj F} {evs : List (Event F)} {c : Case F}  (hc : writerSwitch o = some c)
    (h : CaseOut w env name r o c evs) : ∃ rows, Complete w env r o five (fun _ v => v) rows ∧ PaddedBlock (fun _ => []) name o rows evs := by
  obtain ⟨val, ps, hv, hp, hf⟩ := h
  cases o with
  | counter x =>
    simp only [writerSwitch, Option.some.injEq] at hc
    subst hc
    obtain ⟨h0, n0, e0⟩ := hv .count rfl
    rw [e0] at h0
    refine ⟨[("count", .int n0)], complete_of rfl (.cons ⟨_, h0, rfl⟩ .nil), padded_of (evs_eq hf ?_)⟩
    simp only [List.map, Stmt.den, denArgs, ArgExpr.den, Expr.den, toFloat, floatDiv, e0]
    dsimp only [padLine, padVerb, header, kindWord]
    rfl
  | gauge x =>
    simp only [writerSwitch, Option.some.injEq] at hc
    subst hc
    obtain ⟨h0, n0, e0⟩ := hv .value rfl
    rw [e0] at h0
    refine ⟨[("value", .int n0)], complete_of rfl (.cons ⟨_, h0, rfl⟩ .nil), padded_of (evs_eq hf ?_)⟩
    simp only [List.map, Stmt.den, denArgs, ArgExpr.den, Expr.den, toFloat, floatDiv, e0]
    dsimp only [padLine, padVerb, header, kindWord]
    rfl
  | gaugeF x =>
    simp only [writerSwitch, Option.some.injEq] at hc
    subst hc
    obtain ⟨h0, n0, e0⟩ := hv .value rfl
    rw [e0] at h0
    refine ⟨[("value", .bits n0)], complete_of rfl (.cons ⟨_, h0, rfl⟩ .nil), padded_of (evs_eq hf ?_)⟩
    simp only [List.map, Stmt.den, denArgs, ArgExpr.den, Expr.den, toFloat, floatDiv, e0]
    dsimp only [padLine, padVerb, header, kindWord]
    rfl
  | health x =>
    simp only [writerSwitch, Option.some.injEq] at hc
    subst hc
    obtain ⟨h0, e0⟩ := hv .error rfl
    rcases e0 with e0 | ⟨t, e0⟩ <;> rw [e0] at h0
    · refine ⟨[("error", .nil)], complete_of rfl (.cons ⟨_, h0, rfl⟩ .nil), padded_of (evs_eq hf ?_)⟩
      simp only [List.map, Stmt.den, denArgs, ArgExpr.den, Expr.den, toFloat, floatDiv, e0]
      dsimp only [padLine, padVerb, header, kindWord]
      rfl
    · refine ⟨[("error", .errText t)], complete_of rfl (.cons ⟨_, h0, rfl⟩ .nil), padded_of (evs_eq hf ?_)⟩
      simp only [List.map, Stmt.den, denArgs, ArgExpr.den, Expr.den, toFloat, floatDiv, e0]
      dsimp only [padLine, padVerb, header, kindWord]
      rfl
  | hist x =>
    simp only [writerSwitch, Option.some.injEq, five_eq] at hc
    subst hc
    obtain ⟨h0, n0, e0⟩ := hv .count rfl
    rw [e0] at h0
    obtain ⟨h1, n1, e1⟩ := hv (.stat .min) rfl
    rw [e1] at h1
    obtain ⟨h2, n2, e2⟩ := hv (.stat .max) rfl
    rw [e2] at h2
    obtain ⟨h3, n3, e3⟩ := hv (.stat .mean) rfl
    rw [e3] at h3
    obtain ⟨h4, n4, e4⟩ := hv (.stat .stdDev) rfl
    rw [e4] at h4
    obtain ⟨s0, p0, q0⟩ := hp _ 0 _ rfl rfl
    obtain ⟨s1, p1, q1⟩ := hp _ 1 _ rfl rfl
    obtain ⟨s2, p2, q2⟩ := hp _ 2 _ rfl rfl
    obtain ⟨s3, p3, q3⟩ := hp _ 3 _ rfl rfl
    obtain ⟨s4, p4, q4⟩ := hp _ 4 _ rfl rfl
    refine ⟨[("count", .int n0), ("min", .int n1), ("max", .int n2), ("mean", .float n3), ("stddev", .float n4), ("median", .float s0), ("75%", .float s1), ("95%", .float s2), ("99%", .float s3), ("99.9%", .float s4)], complete_of rfl (.cons ⟨_, h0, rfl⟩ <| .cons ⟨_, h1, rfl⟩ <| .cons ⟨_, h2, rfl⟩ <| .cons ⟨_, h3, rfl⟩ <| .cons ⟨_, h4, rfl⟩ <| .cons ⟨_, q0, rfl⟩ <| .cons ⟨_, q1, rfl⟩ <| .cons ⟨_, q2, rfl⟩ <| .cons ⟨_, q3, rfl⟩ <| .cons ⟨_, q4, rfl⟩ .nil), padded_of (evs_eq hf ?_)⟩
    simp only [List.map, Stmt.den, denArgs, ArgExpr.den, Expr.den, toFloat, floatDiv, e0, e1, e2, e3, e4, p0, p1, p2, p3, p4]
    dsimp only [padLine, padVerb, header, kindWord]
    rfl
  | meter x =>
    simp only [writerSwitch, Option.some.injEq] at hc
    subst hc
    obtain ⟨h0, n0, e0⟩ := hv .count rfl
    rw [e0] at h0
    obtain ⟨h1, n1, e1⟩ := hv (.rates .rate1) rfl
    rw [e1] at h1
    obtain ⟨h2, n2, e2⟩ := hv (.rates .rate5) rfl
    rw [e2] at h2
    obtain ⟨h3, n3, e3⟩ := hv (.rates .rate15) rfl
    rw [e3] at h3
    obtain ⟨h4, n4, e4⟩ := hv (.rates .rateMean) rfl
    rw [e4] at h4
    refine ⟨[("count", .int n0), ("1-min rate", .float n1), ("5-min rate", .float n2), ("15-min rate", .float n3), ("mean rate", .float n4)], complete_of rfl (.cons ⟨_, h0, rfl⟩ <| .cons ⟨_, h1, rfl⟩ <| .cons ⟨_, h2, rfl⟩ <| .cons ⟨_, h3, rfl⟩ <| .cons ⟨_, h4, rfl⟩ .nil), padded_of (evs_eq hf ?_)⟩
    simp only [List.map, Stmt.den, denArgs, ArgExpr.den, Expr.den, toFloat, floatDiv, e0, e1, e2, e3, e4]
    dsimp only [padLine, padVerb, header, kindWord]
    rfl
  | timer x =>
    simp only [writerSwitch, Option.some.injEq, five_eq] at hc
    subst hc
    obtain ⟨h0, n0, e0⟩ := hv .count rfl
    rw [e0] at h0
    obtain ⟨h1, n1, e1⟩ := hv (.stat .min) rfl
    rw [e1] at h1
    obtain ⟨h2, n2, e2⟩ := hv (.stat .max) rfl
    rw [e2] at h2
    obtain ⟨h3, n3, e3⟩ := hv (.stat .mean) rfl
    rw [e3] at h3
    obtain ⟨h4, n4, e4⟩ := hv (.stat .stdDev) rfl
    rw [e4] at h4
    obtain ⟨h5, n5, e5⟩ := hv (.rates .rate1) rfl
    rw [e5] at h5
    obtain ⟨h6, n6, e6⟩ := hv (.rates .rate5) rfl
    rw [e6] at h6
    obtain ⟨h7, n7, e7⟩ := hv (.rates .rate15) rfl
    rw [e7] at h7
    obtain ⟨h8, n8, e8⟩ := hv (.rates .rateMean) rfl
    rw [e8] at h8
    obtain ⟨s0, p0, q0⟩ := hp _ 0 _ rfl rfl
    obtain ⟨s1, p1, q1⟩ := hp _ 1 _ rfl rfl
    obtain ⟨s2, p2, q2⟩ := hp _ 2 _ rfl rfl
    obtain ⟨s3, p3, q3⟩ := hp _ 3 _ rfl rfl
    obtain ⟨s4, p4, q4⟩ := hp _ 4 _ rfl rfl
    refine ⟨[("count", .int n0), ("min", .int n1), ("max", .int n2), ("mean", .float n3), ("stddev", .float n4), ("median", .float s0), ("75%", .float s1), ("95%", .float s2), ("99%", .float s3), ("99.9%", .float s4), ("1-min rate", .float n5), ("5-min rate", .float n6), ("15-min rate", .float n7), ("mean rate", .float n8)], complete_of rfl (.cons ⟨_, h0, rfl⟩ <| .cons ⟨_, h1, rfl⟩ <| .cons ⟨_, h2, rfl⟩ <| .cons ⟨_, h3, rfl⟩ <| .cons ⟨_, h4, rfl⟩ <| .cons ⟨_, q0, rfl⟩ <| .cons ⟨_, q1, rfl⟩ <| .cons ⟨_, q2, rfl⟩ <| .cons ⟨_, q3, rfl⟩ <| .cons ⟨_, q4, rfl⟩ <| .cons ⟨_, h5, rfl⟩ <| .cons ⟨_, h6, rfl⟩ <| .cons ⟨_, h7, rfl⟩ <| .cons ⟨_, h8, rfl⟩ .nil), padded_of (evs_eq hf ?_)⟩
    simp only [List.map, Stmt.den, denArgs, ArgExpr.den, Expr.den, toFloat, floatDiv, e0, e1, e2, e3, e4, e5, e6, e7, e8, p0, p1, p2, p3, p4]
    dsimp only [padLine, padVerb, header, kindWord]
    rfl
  | sample x => simp [writerSwitch] at hc
  | ewma x => simp [writerSwitch] at hc

theorem log_block {w : World F} {env : Env F} {name : Str} {r : Ref} {o : Obj F} {evs : List (Event F)} {c : Case F} {du : F} {sfx : Str} (hc : logSwitch du sfx o = some c)
    (h : CaseOut w env name r o c evs) : ∃ rows, Complete w env r o five (fun c v => if isTimer o && isDuration c then inUnit du v else v) rows ∧
      PaddedBlock (fun l => if isTimer o && (means o l).any isDuration then sfx else []) name o rows evs := by
  obtain ⟨val, ps, hv, hp, hf⟩ := h
  cases o with
  | counter x =>
    simp only [logSwitch, Option.some.injEq] at hc
    subst hc
    obtain ⟨h0, n0, e0⟩ := hv .count rfl
    rw [e0] at h0
    refine ⟨[("count", .int n0)], complete_of rfl (.cons ⟨_, h0, rfl⟩ .nil), padded_of (evs_eq hf ?_)⟩
    simp only [List.map, Stmt.den, denArgs, ArgExpr.den, Expr.den, toFloat, floatDiv, e0]
    dsimp only [padLine, padVerb, header, kindWord]
    rfl
  | gauge x =>
    simp only [logSwitch, Option.some.injEq] at hc
    subst hc
    obtain ⟨h0, n0, e0⟩ := hv .value rfl
    rw [e0] at h0
    refine ⟨[("value", .int n0)], complete_of rfl (.cons ⟨_, h0, rfl⟩ .nil), padded_of (evs_eq hf ?_)⟩
    simp only [List.map, Stmt.den, denArgs, ArgExpr.den, Expr.den, toFloat, floatDiv, e0]
    dsimp only [padLine, padVerb, header, kindWord]
    rfl
  | gaugeF x =>
    simp only [logSwitch, Option.some.injEq] at hc
    subst hc
    obtain ⟨h0, n0, e0⟩ := hv .value rfl
    rw [e0] at h0
    refine ⟨[("value", .bits n0)], complete_of rfl (.cons ⟨_, h0, rfl⟩ .nil), padded_of (evs_eq hf ?_)⟩
    simp only [List.map, Stmt.den, denArgs, ArgExpr.den, Expr.den, toFloat, floatDiv, e0]
    dsimp only [padLine, padVerb, header, kindWord]
    rfl
  | health x =>
    simp only [logSwitch, Option.some.injEq] at hc
    subst hc
    obtain ⟨h0, e0⟩ := hv .error rfl
    rcases e0 with e0 | ⟨t, e0⟩ <;> rw [e0] at h0
    · refine ⟨[("error", .nil)], complete_of rfl (.cons ⟨_, h0, rfl⟩ .nil), padded_of (evs_eq hf ?_)⟩
      simp only [List.map, Stmt.den, denArgs, ArgExpr.den, Expr.den, toFloat, floatDiv, e0]
      dsimp only [padLine, padVerb, header, kindWord]
      rfl
    · refine ⟨[("error", .errText t)], complete_of rfl (.cons ⟨_, h0, rfl⟩ .nil), padded_of (evs_eq hf ?_)⟩
      simp only [List.map, Stmt.den, denArgs, ArgExpr.den, Expr.den, toFloat, floatDiv, e0]
      dsimp only [padLine, padVerb, header, kindWord]
      rfl
  | hist x =>
    simp only [logSwitch, Option.some.injEq, five_eq] at hc
    subst hc
    obtain ⟨h0, n0, e0⟩ := hv .count rfl
    rw [e0] at h0
    obtain ⟨h1, n1, e1⟩ := hv (.stat .min) rfl
    rw [e1] at h1
    obtain ⟨h2, n2, e2⟩ := hv (.stat .max) rfl
    rw [e2] at h2
    obtain ⟨h3, n3, e3⟩ := hv (.stat .mean) rfl
    rw [e3] at h3
    obtain ⟨h4, n4, e4⟩ := hv (.stat .stdDev) rfl
    rw [e4] at h4
    obtain ⟨s0, p0, q0⟩ := hp _ 0 _ rfl rfl
    obtain ⟨s1, p1, q1⟩ := hp _ 1 _ rfl rfl
    obtain ⟨s2, p2, q2⟩ := hp _ 2 _ rfl rfl
    obtain ⟨s3, p3, q3⟩ := hp _ 3 _ rfl rfl
    obtain ⟨s4, p4, q4⟩ := hp _ 4 _ rfl rfl
    refine ⟨[("count", .int n0), ("min", .int n1), ("max", .int n2), ("mean", .float n3), ("stddev", .float n4), ("median", .float s0), ("75%", .float s1), ("95%", .float s2), ("99%", .float s3), ("99.9%", .float s4)], complete_of rfl (.cons ⟨_, h0, rfl⟩ <| .cons ⟨_, h1, rfl⟩ <| .cons ⟨_, h2, rfl⟩ <| .cons ⟨_, h3, rfl⟩ <| .cons ⟨_, h4, rfl⟩ <| .cons ⟨_, q0, rfl⟩ <| .cons ⟨_, q1, rfl⟩ <| .cons ⟨_, q2, rfl⟩ <| .cons ⟨_, q3, rfl⟩ <| .cons ⟨_, q4, rfl⟩ .nil), padded_of (evs_eq hf ?_)⟩
    simp only [List.map, Stmt.den, denArgs, ArgExpr.den, Expr.den, toFloat, floatDiv, e0, e1, e2, e3, e4, p0, p1, p2, p3, p4]
    dsimp only [padLine, padVerb, header, kindWord]
    rfl
  | meter x =>
    simp only [logSwitch, Option.some.injEq] at hc
    subst hc
    obtain ⟨h0, n0, e0⟩ := hv .count rfl
    rw [e0] at h0
    obtain ⟨h1, n1, e1⟩ := hv (.rates .rate1) rfl
    rw [e1] at h1
    obtain ⟨h2, n2, e2⟩ := hv (.rates .rate5) rfl
    rw [e2] at h2
    obtain ⟨h3, n3, e3⟩ := hv (.rates .rate15) rfl
    rw [e3] at h3
    obtain ⟨h4, n4, e4⟩ := hv (.rates .rateMean) rfl
    rw [e4] at h4
    refine ⟨[("count", .int n0), ("1-min rate", .float n1), ("5-min rate", .float n2), ("15-min rate", .float n3), ("mean rate", .float n4)], complete_of rfl (.cons ⟨_, h0, rfl⟩ <| .cons ⟨_, h1, rfl⟩ <| .cons ⟨_, h2, rfl⟩ <| .cons ⟨_, h3, rfl⟩ <| .cons ⟨_, h4, rfl⟩ .nil), padded_of (evs_eq hf ?_)⟩
    simp only [List.map, Stmt.den, denArgs, ArgExpr.den, Expr.den, toFloat, floatDiv, e0, e1, e2, e3, e4]
    dsimp only [padLine, padVerb, header, kindWord]
    rfl
  | timer x =>
    simp only [logSwitch, Option.some.injEq, five_eq] at hc
    subst hc
    obtain ⟨h0, n0, e0⟩ := hv .count rfl
    rw [e0] at h0
    obtain ⟨h1, n1, e1⟩ := hv (.stat .min) rfl
    rw [e1] at h1
    obtain ⟨h2, n2, e2⟩ := hv (.stat .max) rfl
    rw [e2] at h2
    obtain ⟨h3, n3, e3⟩ := hv (.stat .mean) rfl
    rw [e3] at h3
    obtain ⟨h4, n4, e4⟩ := hv (.stat .stdDev) rfl
    rw [e4] at h4
    obtain ⟨h5, n5, e5⟩ := hv (.rates .rate1) rfl
    rw [e5] at h5
    obtain ⟨h6, n6, e6⟩ := hv (.rates .rate5) rfl
    rw [e6] at h6
    obtain ⟨h7, n7, e7⟩ := hv (.rates .rate15) rfl
    rw [e7] at h7
    obtain ⟨h8, n8, e8⟩ := hv (.rates .rateMean) rfl
    rw [e8] at h8
    obtain ⟨s0, p0, q0⟩ := hp _ 0 _ rfl rfl
    obtain ⟨s1, p1, q1⟩ := hp _ 1 _ rfl rfl
    obtain ⟨s2, p2, q2⟩ := hp _ 2 _ rfl rfl
    obtain ⟨s3, p3, q3⟩ := hp _ 3 _ rfl rfl
    obtain ⟨s4, p4, q4⟩ := hp _ 4 _ rfl rfl
    refine ⟨[("count", .int n0), ("min", .float (GoFloat.div (GoFloat.ofInt n1.toInt) du)), ("max", .float (GoFloat.div (GoFloat.ofInt n2.toInt) du)), ("mean", .float (GoFloat.div n3 du)), ("stddev", .float (GoFloat.div n4 du)), ("median", .float (GoFloat.div s0 du)), ("75%", .float (GoFloat.div s1 du)), ("95%", .float (GoFloat.div s2 du)), ("99%", .float (GoFloat.div s3 du)), ("99.9%", .float (GoFloat.div s4 du)), ("1-min rate", .float n5), ("5-min rate", .float n6), ("15-min rate", .float n7), ("mean rate", .float n8)], complete_of rfl (.cons ⟨_, h0, rfl⟩ <| .cons ⟨_, h1, rfl⟩ <| .cons ⟨_, h2, rfl⟩ <| .cons ⟨_, h3, rfl⟩ <| .cons ⟨_, h4, rfl⟩ <| .cons ⟨_, q0, rfl⟩ <| .cons ⟨_, q1, rfl⟩ <| .cons ⟨_, q2, rfl⟩ <| .cons ⟨_, q3, rfl⟩ <| .cons ⟨_, q4, rfl⟩ <| .cons ⟨_, h5, rfl⟩ <| .cons ⟨_, h6, rfl⟩ <| .cons ⟨_, h7, rfl⟩ <| .cons ⟨_, h8, rfl⟩ .nil), padded_of (evs_eq hf ?_)⟩
    simp only [List.map, Stmt.den, denArgs, ArgExpr.den, Expr.den, toFloat, floatDiv, e0, e1, e2, e3, e4, e5, e6, e7, e8, p0, p1, p2, p3, p4]
    dsimp only [padLine, padVerb, header, kindWord]
    rfl
  | sample x => simp [logSwitch] at hc
  | ewma x => simp [logSwitch] at hc

/-- The verbs of the other exporters. -/
def sysVerb : GoMetrics.Field F → Str
  | .int _ => bytes "d"
  | .float _ => bytes ".2f"
  | .bits _ => bytes "f"
  | _ => bytes "v"

def sysPart (row : String × GoMetrics.Field F) : List (Piece (GoMetrics.Field F)) := textOf [32] ++ (textOf (bytes row.1) ++ (textOf (bytes ": ") ++ [.val (sysVerb row.2) row.2]))

theorem sysVerb_eq (v : GoMetrics.Field F) : sysVerb v = verb v := by rcases v with _ | _ | _ | _ | _ <;> rfl

theorem oneWord_of {rows : List (String × GoMetrics.Field F)} (h : ((rows.map Prod.fst).all fun l => !(bytes l).contains 32) = true) : ∀ row ∈ rows, (32 : UInt8) ∉ bytes row.1 := by
  intro row hr
  have := List.all_eq_true.1 h row.1 (List.mem_map_of_mem hr)
  simpa using this

theorem syslog_of {o : Obj F} {name : Str} {rows : List (String × GoMetrics.Field F)} {evs : List (Event F)} (hl : ∃ row ∈ rows.head?, row.1 ∈ firstLabels) (hw : ∀ row ∈ rows, (32 : UInt8) ∉ bytes row.1)
    (h : evs = [.print (textOf (bytes (kindWord o)) ++ (textOf [32] ++ (textOf name ++ (textOf [58] ++ (rows.map sysPart).flatten))))]) : SyslogBlock name o rows evs := by
  refine ⟨hl, hw, _, h, ?_⟩
  clear h hl hw
  induction rows with
  | nil => exact .nil
  | cons row rows ih =>
    exact .cons (by simp only [sysPart, sysVerb_eq]) ih

set_option maxRecDepth 10000 in
theorem syslog_block {w : World F} {env : Env F} {name : Str} {r : Ref} {o : Obj F} {evs : List (Event F)} {c : Case F}  (hc : syslogSwitch o = some c)
    (h : CaseOut w env name r o c evs) : ∃ rows, Complete w env r o five (fun _ v => v) rows ∧ SyslogBlock name o rows evs := by
  obtain ⟨val, ps, hv, hp, hf⟩ := h
  cases o with
  | counter x =>
    simp only [syslogSwitch, Option.some.injEq] at hc
    subst hc
    obtain ⟨h0, n0, e0⟩ := hv .count rfl
    rw [e0] at h0
    refine ⟨[("count", .int n0)], complete_of rfl (.cons ⟨_, h0, rfl⟩ .nil), syslog_of (by simp [Spec.firstLabels]) (oneWord_of rfl) (evs_eq hf ?_)⟩
    simp only [List.map, Stmt.den, denArgs, ArgExpr.den, Expr.den, toFloat, floatDiv, e0]
    dsimp only [List.map, sysPart, sysVerb, kindWord]
    rfl
  | gauge x =>
    simp only [syslogSwitch, Option.some.injEq] at hc
    subst hc
    obtain ⟨h0, n0, e0⟩ := hv .value rfl
    rw [e0] at h0
    refine ⟨[("value", .int n0)], complete_of rfl (.cons ⟨_, h0, rfl⟩ .nil), syslog_of (by simp [Spec.firstLabels]) (oneWord_of rfl) (evs_eq hf ?_)⟩
    simp only [List.map, Stmt.den, denArgs, ArgExpr.den, Expr.den, toFloat, floatDiv, e0]
    dsimp only [List.map, sysPart, sysVerb, kindWord]
    rfl
  | gaugeF x =>
    simp only [syslogSwitch, Option.some.injEq] at hc
    subst hc
    obtain ⟨h0, n0, e0⟩ := hv .value rfl
    rw [e0] at h0
    refine ⟨[("value", .bits n0)], complete_of rfl (.cons ⟨_, h0, rfl⟩ .nil), syslog_of (by simp [Spec.firstLabels]) (oneWord_of rfl) (evs_eq hf ?_)⟩
    simp only [List.map, Stmt.den, denArgs, ArgExpr.den, Expr.den, toFloat, floatDiv, e0]
    dsimp only [List.map, sysPart, sysVerb, kindWord]
    rfl
  | health x =>
    simp only [syslogSwitch, Option.some.injEq] at hc
    subst hc
    obtain ⟨h0, e0⟩ := hv .error rfl
    rcases e0 with e0 | ⟨t, e0⟩ <;> rw [e0] at h0
    · refine ⟨[("error", .nil)], complete_of rfl (.cons ⟨_, h0, rfl⟩ .nil), syslog_of (by simp [Spec.firstLabels]) (oneWord_of rfl) (evs_eq hf ?_)⟩
      simp only [List.map, Stmt.den, denArgs, ArgExpr.den, Expr.den, toFloat, floatDiv, e0]
      dsimp only [List.map, sysPart, sysVerb, kindWord]
      rfl
    · refine ⟨[("error", .errText t)], complete_of rfl (.cons ⟨_, h0, rfl⟩ .nil), syslog_of (by simp [Spec.firstLabels]) (oneWord_of rfl) (evs_eq hf ?_)⟩
      simp only [List.map, Stmt.den, denArgs, ArgExpr.den, Expr.den, toFloat, floatDiv, e0]
      dsimp only [List.map, sysPart, sysVerb, kindWord]
      rfl
  | hist x =>
    simp only [syslogSwitch, Option.some.injEq, five_eq] at hc
    subst hc
    obtain ⟨h0, n0, e0⟩ := hv .count rfl
    rw [e0] at h0
    obtain ⟨h1, n1, e1⟩ := hv (.stat .min) rfl
    rw [e1] at h1
    obtain ⟨h2, n2, e2⟩ := hv (.stat .max) rfl
    rw [e2] at h2
    obtain ⟨h3, n3, e3⟩ := hv (.stat .mean) rfl
    rw [e3] at h3
    obtain ⟨h4, n4, e4⟩ := hv (.stat .stdDev) rfl
    rw [e4] at h4
    obtain ⟨s0, p0, q0⟩ := hp _ 0 _ rfl rfl
    obtain ⟨s1, p1, q1⟩ := hp _ 1 _ rfl rfl
    obtain ⟨s2, p2, q2⟩ := hp _ 2 _ rfl rfl
    obtain ⟨s3, p3, q3⟩ := hp _ 3 _ rfl rfl
    obtain ⟨s4, p4, q4⟩ := hp _ 4 _ rfl rfl
    refine ⟨[("count", .int n0), ("min", .int n1), ("max", .int n2), ("mean", .float n3), ("stddev", .float n4), ("median", .float s0), ("75%", .float s1), ("95%", .float s2), ("99%", .float s3), ("99.9%", .float s4)], complete_of rfl (.cons ⟨_, h0, rfl⟩ <| .cons ⟨_, h1, rfl⟩ <| .cons ⟨_, h2, rfl⟩ <| .cons ⟨_, h3, rfl⟩ <| .cons ⟨_, h4, rfl⟩ <| .cons ⟨_, q0, rfl⟩ <| .cons ⟨_, q1, rfl⟩ <| .cons ⟨_, q2, rfl⟩ <| .cons ⟨_, q3, rfl⟩ <| .cons ⟨_, q4, rfl⟩ .nil), syslog_of (by simp [Spec.firstLabels]) (oneWord_of rfl) (evs_eq hf ?_)⟩
    simp only [List.map, Stmt.den, denArgs, ArgExpr.den, Expr.den, toFloat, floatDiv, e0, e1, e2, e3, e4, p0, p1, p2, p3, p4]
    dsimp only [List.map, sysPart, sysVerb, kindWord]
    rfl
  | meter x =>
    simp only [syslogSwitch, Option.some.injEq] at hc
    subst hc
    obtain ⟨h0, n0, e0⟩ := hv .count rfl
    rw [e0] at h0
    obtain ⟨h1, n1, e1⟩ := hv (.rates .rate1) rfl
    rw [e1] at h1
    obtain ⟨h2, n2, e2⟩ := hv (.rates .rate5) rfl
    rw [e2] at h2
    obtain ⟨h3, n3, e3⟩ := hv (.rates .rate15) rfl
    rw [e3] at h3
    obtain ⟨h4, n4, e4⟩ := hv (.rates .rateMean) rfl
    rw [e4] at h4
    refine ⟨[("count", .int n0), ("1-min", .float n1), ("5-min", .float n2), ("15-min", .float n3), ("mean", .float n4)], complete_of rfl (.cons ⟨_, h0, rfl⟩ <| .cons ⟨_, h1, rfl⟩ <| .cons ⟨_, h2, rfl⟩ <| .cons ⟨_, h3, rfl⟩ <| .cons ⟨_, h4, rfl⟩ .nil), syslog_of (by simp [Spec.firstLabels]) (oneWord_of rfl) (evs_eq hf ?_)⟩
    simp only [List.map, Stmt.den, denArgs, ArgExpr.den, Expr.den, toFloat, floatDiv, e0, e1, e2, e3, e4]
    dsimp only [List.map, sysPart, sysVerb, kindWord]
    rfl
  | timer x =>
    simp only [syslogSwitch, Option.some.injEq, five_eq] at hc
    subst hc
    obtain ⟨h0, n0, e0⟩ := hv .count rfl
    rw [e0] at h0
    obtain ⟨h1, n1, e1⟩ := hv (.stat .min) rfl
    rw [e1] at h1
    obtain ⟨h2, n2, e2⟩ := hv (.stat .max) rfl
    rw [e2] at h2
    obtain ⟨h3, n3, e3⟩ := hv (.stat .mean) rfl
    rw [e3] at h3
    obtain ⟨h4, n4, e4⟩ := hv (.stat .stdDev) rfl
    rw [e4] at h4
    obtain ⟨h5, n5, e5⟩ := hv (.rates .rate1) rfl
    rw [e5] at h5
    obtain ⟨h6, n6, e6⟩ := hv (.rates .rate5) rfl
    rw [e6] at h6
    obtain ⟨h7, n7, e7⟩ := hv (.rates .rate15) rfl
    rw [e7] at h7
    obtain ⟨h8, n8, e8⟩ := hv (.rates .rateMean) rfl
    rw [e8] at h8
    obtain ⟨s0, p0, q0⟩ := hp _ 0 _ rfl rfl
    obtain ⟨s1, p1, q1⟩ := hp _ 1 _ rfl rfl
    obtain ⟨s2, p2, q2⟩ := hp _ 2 _ rfl rfl
    obtain ⟨s3, p3, q3⟩ := hp _ 3 _ rfl rfl
    obtain ⟨s4, p4, q4⟩ := hp _ 4 _ rfl rfl
    refine ⟨[("count", .int n0), ("min", .int n1), ("max", .int n2), ("mean", .float n3), ("stddev", .float n4), ("median", .float s0), ("75%", .float s1), ("95%", .float s2), ("99%", .float s3), ("99.9%", .float s4), ("1-min", .float n5), ("5-min", .float n6), ("15-min", .float n7), ("mean-rate", .float n8)], complete_of rfl (.cons ⟨_, h0, rfl⟩ <| .cons ⟨_, h1, rfl⟩ <| .cons ⟨_, h2, rfl⟩ <| .cons ⟨_, h3, rfl⟩ <| .cons ⟨_, h4, rfl⟩ <| .cons ⟨_, q0, rfl⟩ <| .cons ⟨_, q1, rfl⟩ <| .cons ⟨_, q2, rfl⟩ <| .cons ⟨_, q3, rfl⟩ <| .cons ⟨_, q4, rfl⟩ <| .cons ⟨_, h5, rfl⟩ <| .cons ⟨_, h6, rfl⟩ <| .cons ⟨_, h7, rfl⟩ <| .cons ⟨_, h8, rfl⟩ .nil), syslog_of (by simp [Spec.firstLabels]) (oneWord_of rfl) (evs_eq hf ?_)⟩
    simp only [List.map, Stmt.den, denArgs, ArgExpr.den, Expr.den, toFloat, floatDiv, e0, e1, e2, e3, e4, e5, e6, e7, e8, p0, p1, p2, p3, p4]
    dsimp only [List.map, sysPart, sysVerb, kindWord]
    rfl
  | sample x => simp [syslogSwitch] at hc
  | ewma x => simp [syslogSwitch] at hc

instance (s : Str) : Decidable (IsLabel s) := inferInstanceAs (Decidable (_ ∧ _))

theorem labels_of {rows : List (String × GoMetrics.Field F)} (h : ((rows.map Prod.fst).all fun l => decide (IsLabel (bytes l))) = true) : ∀ row ∈ rows, IsLabel (bytes row.1) := by
  intro row hr
  have := List.all_eq_true.1 h row.1 (List.mem_map_of_mem hr)
  exact of_decide_eq_true this

def tsdbLine (pre name : Str) (now : Int64) (host : Str) (row : String × GoMetrics.Field F) : Event F :=
  .print (textOf (bytes "put ") ++ (textOf pre ++ (textOf [46] ++ (textOf name ++ (textOf [46] ++ (textOf (bytes row.1) ++ (textOf [32] ++ .val [100] (.int now) :: textOf [32] ++ .val (sysVerb row.2) row.2 :: (textOf (bytes " host=") ++ (textOf host ++ textOf [10])))))))))

theorem tsdb_of {pre name : Str} {now : Int64} {host : Str} {rows : List (String × GoMetrics.Field F)} {evs : List (Event F)}
    (h : evs = rows.map (tsdbLine pre name now host)) : List.Forall₂ (fun row e => OpenTSDBLine pre name now host (bytes row.1) row.2 e) rows evs := by
  subst h
  induction rows with
  | nil => exact .nil
  | cons row rows ih =>
    exact .cons (by simp only [OpenTSDBLine, tsdbLine, sysVerb_eq]) ih

theorem openTSDB_block {w : World F} {env : Env F} {name : Str} {r : Ref} {o : Obj F} {evs : List (Event F)} {c : Case F} {cfg : OpenTSDBConfig} (hu : Int64.ofInt (GoFloat.toInt (GoFloat.ofInt cfg.durationUnit.toInt : F)) = cfg.durationUnit) (hc : openTSDBSwitch cfg o = some c)
    (h : CaseOut w env name r o c evs) : ∃ rows, Complete w env r o five (fun c v => if isTimer o && isDuration c then inUnitInt cfg.durationUnit (GoFloat.ofInt cfg.durationUnit.toInt) v else v) rows ∧
      (∀ row ∈ rows, IsLabel (bytes row.1)) ∧ List.Forall₂ (fun row e => OpenTSDBLine cfg.pre name cfg.now cfg.host (bytes row.1) row.2 e) rows evs := by
  obtain ⟨val, ps, hv, hp, hf⟩ := h
  cases o with
  | counter x =>
    simp only [openTSDBSwitch, Option.some.injEq] at hc
    subst hc
    obtain ⟨h0, n0, e0⟩ := hv .count rfl
    rw [e0] at h0
    refine ⟨[("count", .int n0)], complete_of rfl (.cons ⟨_, h0, rfl⟩ .nil), labels_of rfl, tsdb_of (evs_eq hf ?_)⟩
    simp only [List.map, Stmt.den, denArgs, ArgExpr.den, Expr.den, toFloat, floatDiv, e0]
    dsimp only [tsdbLine, sysVerb]
    rfl
  | gauge x =>
    simp only [openTSDBSwitch, Option.some.injEq] at hc
    subst hc
    obtain ⟨h0, n0, e0⟩ := hv .value rfl
    rw [e0] at h0
    refine ⟨[("value", .int n0)], complete_of rfl (.cons ⟨_, h0, rfl⟩ .nil), labels_of rfl, tsdb_of (evs_eq hf ?_)⟩
    simp only [List.map, Stmt.den, denArgs, ArgExpr.den, Expr.den, toFloat, floatDiv, e0]
    dsimp only [tsdbLine, sysVerb]
    rfl
  | gaugeF x =>
    simp only [openTSDBSwitch, Option.some.injEq] at hc
    subst hc
    obtain ⟨h0, n0, e0⟩ := hv .value rfl
    rw [e0] at h0
    refine ⟨[("value", .bits n0)], complete_of rfl (.cons ⟨_, h0, rfl⟩ .nil), labels_of rfl, tsdb_of (evs_eq hf ?_)⟩
    simp only [List.map, Stmt.den, denArgs, ArgExpr.den, Expr.den, toFloat, floatDiv, e0]
    dsimp only [tsdbLine, sysVerb]
    rfl
  | hist x =>
    simp only [openTSDBSwitch, Option.some.injEq, five_eq] at hc
    subst hc
    obtain ⟨h0, n0, e0⟩ := hv .count rfl
    rw [e0] at h0
    obtain ⟨h1, n1, e1⟩ := hv (.stat .min) rfl
    rw [e1] at h1
    obtain ⟨h2, n2, e2⟩ := hv (.stat .max) rfl
    rw [e2] at h2
    obtain ⟨h3, n3, e3⟩ := hv (.stat .mean) rfl
    rw [e3] at h3
    obtain ⟨h4, n4, e4⟩ := hv (.stat .stdDev) rfl
    rw [e4] at h4
    obtain ⟨s0, p0, q0⟩ := hp _ 0 _ rfl rfl
    obtain ⟨s1, p1, q1⟩ := hp _ 1 _ rfl rfl
    obtain ⟨s2, p2, q2⟩ := hp _ 2 _ rfl rfl
    obtain ⟨s3, p3, q3⟩ := hp _ 3 _ rfl rfl
    obtain ⟨s4, p4, q4⟩ := hp _ 4 _ rfl rfl
    refine ⟨[("count", .int n0), ("min", .int n1), ("max", .int n2), ("mean", .float n3), ("std-dev", .float n4), ("50-percentile", .float s0), ("75-percentile", .float s1), ("95-percentile", .float s2), ("99-percentile", .float s3), ("999-percentile", .float s4)], complete_of rfl (.cons ⟨_, h0, rfl⟩ <| .cons ⟨_, h1, rfl⟩ <| .cons ⟨_, h2, rfl⟩ <| .cons ⟨_, h3, rfl⟩ <| .cons ⟨_, h4, rfl⟩ <| .cons ⟨_, q0, rfl⟩ <| .cons ⟨_, q1, rfl⟩ <| .cons ⟨_, q2, rfl⟩ <| .cons ⟨_, q3, rfl⟩ <| .cons ⟨_, q4, rfl⟩ .nil), labels_of rfl, tsdb_of (evs_eq hf ?_)⟩
    simp only [List.map, Stmt.den, denArgs, ArgExpr.den, Expr.den, toFloat, floatDiv, e0, e1, e2, e3, e4, p0, p1, p2, p3, p4]
    dsimp only [tsdbLine, sysVerb]
    rfl
  | meter x =>
    simp only [openTSDBSwitch, Option.some.injEq] at hc
    subst hc
    obtain ⟨h0, n0, e0⟩ := hv .count rfl
    rw [e0] at h0
    obtain ⟨h1, n1, e1⟩ := hv (.rates .rate1) rfl
    rw [e1] at h1
    obtain ⟨h2, n2, e2⟩ := hv (.rates .rate5) rfl
    rw [e2] at h2
    obtain ⟨h3, n3, e3⟩ := hv (.rates .rate15) rfl
    rw [e3] at h3
    obtain ⟨h4, n4, e4⟩ := hv (.rates .rateMean) rfl
    rw [e4] at h4
    refine ⟨[("count", .int n0), ("one-minute", .float n1), ("five-minute", .float n2), ("fifteen-minute", .float n3), ("mean", .float n4)], complete_of rfl (.cons ⟨_, h0, rfl⟩ <| .cons ⟨_, h1, rfl⟩ <| .cons ⟨_, h2, rfl⟩ <| .cons ⟨_, h3, rfl⟩ <| .cons ⟨_, h4, rfl⟩ .nil), labels_of rfl, tsdb_of (evs_eq hf ?_)⟩
    simp only [List.map, Stmt.den, denArgs, ArgExpr.den, Expr.den, toFloat, floatDiv, e0, e1, e2, e3, e4]
    dsimp only [tsdbLine, sysVerb]
    rfl
  | timer x =>
    simp only [openTSDBSwitch, Option.some.injEq, five_eq] at hc
    subst hc
    obtain ⟨h0, n0, e0⟩ := hv .count rfl
    rw [e0] at h0
    obtain ⟨h1, n1, e1⟩ := hv (.stat .min) rfl
    rw [e1] at h1
    obtain ⟨h2, n2, e2⟩ := hv (.stat .max) rfl
    rw [e2] at h2
    obtain ⟨h3, n3, e3⟩ := hv (.stat .mean) rfl
    rw [e3] at h3
    obtain ⟨h4, n4, e4⟩ := hv (.stat .stdDev) rfl
    rw [e4] at h4
    obtain ⟨h5, n5, e5⟩ := hv (.rates .rate1) rfl
    rw [e5] at h5
    obtain ⟨h6, n6, e6⟩ := hv (.rates .rate5) rfl
    rw [e6] at h6
    obtain ⟨h7, n7, e7⟩ := hv (.rates .rate15) rfl
    rw [e7] at h7
    obtain ⟨h8, n8, e8⟩ := hv (.rates .rateMean) rfl
    rw [e8] at h8
    obtain ⟨s0, p0, q0⟩ := hp _ 0 _ rfl rfl
    obtain ⟨s1, p1, q1⟩ := hp _ 1 _ rfl rfl
    obtain ⟨s2, p2, q2⟩ := hp _ 2 _ rfl rfl
    obtain ⟨s3, p3, q3⟩ := hp _ 3 _ rfl rfl
    obtain ⟨s4, p4, q4⟩ := hp _ 4 _ rfl rfl
    by_cases h0' : cfg.durationUnit = 0
    · exfalso
      simp only [hu] at hf
      rcases hf with _ | ⟨-, hf⟩
      rcases hf with _ | ⟨hf, -⟩
      simp [Stmt.den, denArgs, ArgExpr.den, Expr.den, intDiv, e1, h0'] at hf
    refine ⟨[("count", .int n0), ("min", .int (n1 / cfg.durationUnit)), ("max", .int (n2 / cfg.durationUnit)), ("mean", .float (GoFloat.div n3 (GoFloat.ofInt cfg.durationUnit.toInt))), ("std-dev", .float (GoFloat.div n4 (GoFloat.ofInt cfg.durationUnit.toInt))), ("50-percentile", .float (GoFloat.div s0 (GoFloat.ofInt cfg.durationUnit.toInt))), ("75-percentile", .float (GoFloat.div s1 (GoFloat.ofInt cfg.durationUnit.toInt))), ("95-percentile", .float (GoFloat.div s2 (GoFloat.ofInt cfg.durationUnit.toInt))), ("99-percentile", .float (GoFloat.div s3 (GoFloat.ofInt cfg.durationUnit.toInt))), ("999-percentile", .float (GoFloat.div s4 (GoFloat.ofInt cfg.durationUnit.toInt))), ("one-minute", .float n5), ("five-minute", .float n6), ("fifteen-minute", .float n7), ("mean-rate", .float n8)], complete_of rfl (.cons ⟨_, h0, rfl⟩ <| .cons ⟨_, h1, rfl⟩ <| .cons ⟨_, h2, rfl⟩ <| .cons ⟨_, h3, rfl⟩ <| .cons ⟨_, h4, rfl⟩ <| .cons ⟨_, q0, rfl⟩ <| .cons ⟨_, q1, rfl⟩ <| .cons ⟨_, q2, rfl⟩ <| .cons ⟨_, q3, rfl⟩ <| .cons ⟨_, q4, rfl⟩ <| .cons ⟨_, h5, rfl⟩ <| .cons ⟨_, h6, rfl⟩ <| .cons ⟨_, h7, rfl⟩ <| .cons ⟨_, h8, rfl⟩ .nil), labels_of rfl, tsdb_of (evs_eq hf ?_)⟩
    simp only [List.map, Stmt.den, denArgs, ArgExpr.den, Expr.den, toFloat, floatDiv, hu, intDiv, h0', if_neg, not_false_eq_true, e0, e1, e2, e3, e4, e5, e6, e7, e8, p0, p1, p2, p3, p4]
    dsimp only [tsdbLine, sysVerb]
    rfl
  | health x => simp [openTSDBSwitch] at hc
  | sample x => simp [openTSDBSwitch] at hc
  | ewma x => simp [openTSDBSwitch] at hc

def shPost (o : Obj F) (name key : Str) (row : String × GoMetrics.Field F) : Event F :=
  match means o row.1 with
  | some .count => .count (name ++ (if row.1 = "" then [] else 46 :: bytes row.1)) key row.2
  | _ => .value (name ++ (if row.1 = "" then [] else 46 :: bytes row.1)) key row.2

theorem stathat_of {o : Obj F} {name key : Str} (rows : List (String × GoMetrics.Field F)) : List.Forall₂ (StatHatPost o name key) rows (rows.map (shPost o name key)) := by
  induction rows with
  | nil => exact .nil
  | cons row rows ih =>
    refine .cons ?_ ih
    unfold StatHatPost shPost
    generalize means o row.1 = m
    rcases m with _ | c
    · rfl
    · cases c <;> rfl

theorem stathat_block {w : World F} {env : Env F} {name : Str} {r : Ref} {o : Obj F} {evs : List (Event F)} {c : Case F} {key : Str} (hc : stathatSwitch key o = some c)
    (h : CaseOut w env name r o c evs) : ∃ rows, Complete w env r o five (fun c v => if isCount c then v else asFloat v) rows ∧
      List.Forall₂ (StatHatPost o name key) rows evs := by
  obtain ⟨val, ps, hv, hp, hf⟩ := h
  cases o with
  | counter x =>
    simp only [stathatSwitch, Option.some.injEq] at hc
    subst hc
    obtain ⟨h0, n0, e0⟩ := hv .count rfl
    rw [e0] at h0
    refine ⟨[("", .int n0)], complete_of rfl (.cons ⟨_, h0, rfl⟩ .nil), ?_⟩
    have := evs_eq hf (es := [("", .int n0)].map (shPost (.counter x) name key)) (by
      simp only [List.map, Stmt.den, denArgs, ArgExpr.den, Expr.den, toFloat, floatDiv, e0]
      rfl)
    rw [this]
    exact stathat_of _
  | gauge x =>
    simp only [stathatSwitch, Option.some.injEq] at hc
    subst hc
    obtain ⟨h0, n0, e0⟩ := hv .value rfl
    rw [e0] at h0
    refine ⟨[("", .float (GoFloat.ofInt n0.toInt))], complete_of rfl (.cons ⟨_, h0, rfl⟩ .nil), ?_⟩
    have := evs_eq hf (es := [("", .float (GoFloat.ofInt n0.toInt))].map (shPost (.gauge x) name key)) (by
      simp only [List.map, Stmt.den, denArgs, ArgExpr.den, Expr.den, toFloat, floatDiv, e0]
      rfl)
    rw [this]
    exact stathat_of _
  | gaugeF x =>
    simp only [stathatSwitch, Option.some.injEq] at hc
    subst hc
    obtain ⟨h0, n0, e0⟩ := hv .value rfl
    rw [e0] at h0
    refine ⟨[("", .bits n0)], complete_of rfl (.cons ⟨_, h0, rfl⟩ .nil), ?_⟩
    have := evs_eq hf (es := [("", .bits n0)].map (shPost (.gaugeF x) name key)) (by
      simp only [List.map, Stmt.den, denArgs, ArgExpr.den, Expr.den, toFloat, floatDiv, e0]
      rfl)
    rw [this]
    exact stathat_of _
  | hist x =>
    simp only [stathatSwitch, Option.some.injEq, five_eq] at hc
    subst hc
    obtain ⟨h0, n0, e0⟩ := hv .count rfl
    rw [e0] at h0
    obtain ⟨h1, n1, e1⟩ := hv (.stat .min) rfl
    rw [e1] at h1
    obtain ⟨h2, n2, e2⟩ := hv (.stat .max) rfl
    rw [e2] at h2
    obtain ⟨h3, n3, e3⟩ := hv (.stat .mean) rfl
    rw [e3] at h3
    obtain ⟨h4, n4, e4⟩ := hv (.stat .stdDev) rfl
    rw [e4] at h4
    obtain ⟨s0, p0, q0⟩ := hp _ 0 _ rfl rfl
    obtain ⟨s1, p1, q1⟩ := hp _ 1 _ rfl rfl
    obtain ⟨s2, p2, q2⟩ := hp _ 2 _ rfl rfl
    obtain ⟨s3, p3, q3⟩ := hp _ 3 _ rfl rfl
    obtain ⟨s4, p4, q4⟩ := hp _ 4 _ rfl rfl
    refine ⟨[("count", .int n0), ("min", .float (GoFloat.ofInt n1.toInt)), ("max", .float (GoFloat.ofInt n2.toInt)), ("mean", .float n3), ("std-dev", .float n4), ("50-percentile", .float s0), ("75-percentile", .float s1), ("95-percentile", .float s2), ("99-percentile", .float s3), ("999-percentile", .float s4)], complete_of rfl (.cons ⟨_, h0, rfl⟩ <| .cons ⟨_, h1, rfl⟩ <| .cons ⟨_, h2, rfl⟩ <| .cons ⟨_, h3, rfl⟩ <| .cons ⟨_, h4, rfl⟩ <| .cons ⟨_, q0, rfl⟩ <| .cons ⟨_, q1, rfl⟩ <| .cons ⟨_, q2, rfl⟩ <| .cons ⟨_, q3, rfl⟩ <| .cons ⟨_, q4, rfl⟩ .nil), ?_⟩
    have := evs_eq hf (es := [("count", .int n0), ("min", .float (GoFloat.ofInt n1.toInt)), ("max", .float (GoFloat.ofInt n2.toInt)), ("mean", .float n3), ("std-dev", .float n4), ("50-percentile", .float s0), ("75-percentile", .float s1), ("95-percentile", .float s2), ("99-percentile", .float s3), ("999-percentile", .float s4)].map (shPost (.hist x) name key)) (by
      simp only [List.map, Stmt.den, denArgs, ArgExpr.den, Expr.den, toFloat, floatDiv, e0, e1, e2, e3, e4, p0, p1, p2, p3, p4]
      rfl)
    rw [this]
    exact stathat_of _
  | meter x =>
    simp only [stathatSwitch, Option.some.injEq] at hc
    subst hc
    obtain ⟨h0, n0, e0⟩ := hv .count rfl
    rw [e0] at h0
    obtain ⟨h1, n1, e1⟩ := hv (.rates .rate1) rfl
    rw [e1] at h1
    obtain ⟨h2, n2, e2⟩ := hv (.rates .rate5) rfl
    rw [e2] at h2
    obtain ⟨h3, n3, e3⟩ := hv (.rates .rate15) rfl
    rw [e3] at h3
    obtain ⟨h4, n4, e4⟩ := hv (.rates .rateMean) rfl
    rw [e4] at h4
    refine ⟨[("count", .int n0), ("one-minute", .float n1), ("five-minute", .float n2), ("fifteen-minute", .float n3), ("mean", .float n4)], complete_of rfl (.cons ⟨_, h0, rfl⟩ <| .cons ⟨_, h1, rfl⟩ <| .cons ⟨_, h2, rfl⟩ <| .cons ⟨_, h3, rfl⟩ <| .cons ⟨_, h4, rfl⟩ .nil), ?_⟩
    have := evs_eq hf (es := [("count", .int n0), ("one-minute", .float n1), ("five-minute", .float n2), ("fifteen-minute", .float n3), ("mean", .float n4)].map (shPost (.meter x) name key)) (by
      simp only [List.map, Stmt.den, denArgs, ArgExpr.den, Expr.den, toFloat, floatDiv, e0, e1, e2, e3, e4]
      rfl)
    rw [this]
    exact stathat_of _
  | timer x =>
    simp only [stathatSwitch, Option.some.injEq, five_eq] at hc
    subst hc
    obtain ⟨h0, n0, e0⟩ := hv .count rfl
    rw [e0] at h0
    obtain ⟨h1, n1, e1⟩ := hv (.stat .min) rfl
    rw [e1] at h1
    obtain ⟨h2, n2, e2⟩ := hv (.stat .max) rfl
    rw [e2] at h2
    obtain ⟨h3, n3, e3⟩ := hv (.stat .mean) rfl
    rw [e3] at h3
    obtain ⟨h4, n4, e4⟩ := hv (.stat .stdDev) rfl
    rw [e4] at h4
    obtain ⟨h5, n5, e5⟩ := hv (.rates .rate1) rfl
    rw [e5] at h5
    obtain ⟨h6, n6, e6⟩ := hv (.rates .rate5) rfl
    rw [e6] at h6
    obtain ⟨h7, n7, e7⟩ := hv (.rates .rate15) rfl
    rw [e7] at h7
    obtain ⟨h8, n8, e8⟩ := hv (.rates .rateMean) rfl
    rw [e8] at h8
    obtain ⟨s0, p0, q0⟩ := hp _ 0 _ rfl rfl
    obtain ⟨s1, p1, q1⟩ := hp _ 1 _ rfl rfl
    obtain ⟨s2, p2, q2⟩ := hp _ 2 _ rfl rfl
    obtain ⟨s3, p3, q3⟩ := hp _ 3 _ rfl rfl
    obtain ⟨s4, p4, q4⟩ := hp _ 4 _ rfl rfl
    refine ⟨[("count", .int n0), ("min", .float (GoFloat.ofInt n1.toInt)), ("max", .float (GoFloat.ofInt n2.toInt)), ("mean", .float n3), ("std-dev", .float n4), ("50-percentile", .float s0), ("75-percentile", .float s1), ("95-percentile", .float s2), ("99-percentile", .float s3), ("999-percentile", .float s4), ("one-minute", .float n5), ("five-minute", .float n6), ("fifteen-minute", .float n7), ("mean-rate", .float n8)], complete_of rfl (.cons ⟨_, h0, rfl⟩ <| .cons ⟨_, h1, rfl⟩ <| .cons ⟨_, h2, rfl⟩ <| .cons ⟨_, h3, rfl⟩ <| .cons ⟨_, h4, rfl⟩ <| .cons ⟨_, q0, rfl⟩ <| .cons ⟨_, q1, rfl⟩ <| .cons ⟨_, q2, rfl⟩ <| .cons ⟨_, q3, rfl⟩ <| .cons ⟨_, q4, rfl⟩ <| .cons ⟨_, h5, rfl⟩ <| .cons ⟨_, h6, rfl⟩ <| .cons ⟨_, h7, rfl⟩ <| .cons ⟨_, h8, rfl⟩ .nil), ?_⟩
    have := evs_eq hf (es := [("count", .int n0), ("min", .float (GoFloat.ofInt n1.toInt)), ("max", .float (GoFloat.ofInt n2.toInt)), ("mean", .float n3), ("std-dev", .float n4), ("50-percentile", .float s0), ("75-percentile", .float s1), ("95-percentile", .float s2), ("99-percentile", .float s3), ("999-percentile", .float s4), ("one-minute", .float n5), ("five-minute", .float n6), ("fifteen-minute", .float n7), ("mean-rate", .float n8)].map (shPost (.timer x) name key)) (by
      simp only [List.map, Stmt.den, denArgs, ArgExpr.den, Expr.den, toFloat, floatDiv, e0, e1, e2, e3, e4, e5, e6, e7, e8, p0, p1, p2, p3, p4]
      rfl)
    rw [this]
    exact stathat_of _
  | health x => simp [stathatSwitch] at hc
  | sample x => simp [stathatSwitch] at hc
  | ewma x => simp [stathatSwitch] at hc

def graphiteLine (pre name : Str) (now : Int64) (label : Str) (v : GoMetrics.Field F) : Event F :=
  .print (textOf pre ++ (textOf [46] ++ (textOf name ++ (textOf [46] ++ (textOf label ++ (textOf [32] ++ .val (sysVerb v) v :: textOf [32] ++ .val [100] (.int now) :: textOf [10]))))))

theorem graphite_line {pre name : Str} {now : Int64} {label : Str} {v : GoMetrics.Field F} : GraphiteLine pre name now label v (graphiteLine pre name now label v) := by
  simp only [GraphiteLine, graphiteLine, sysVerb_eq]

theorem percentileKey_eq (f : F → Str) : percentileKey f = pctKey f := by
  have : ∀ s : Str, removeFirstPoint s = s.erase 46 := by
    intro s
    induction s with
    | nil => rfl
    | cons b s ih =>
      rw [removeFirstPoint, List.erase_cons, ih]
      by_cases h : b = 46 <;> simp [h]
  funext x
  exact this _

/-- The configured percentiles and their values. -/
def pctRows (cfg : GraphiteConfig F) (ps : List F) : List (F × GoMetrics.Field F) := cfg.percentiles.zipIdx.map fun x => (x.1, .float (ps[x.2]?.getD x.1))

theorem format_text {V : Type} (pre name key : Str) (v : V) (now : V) : sprintf "%s.%s.%s-percentile %.2f %d\n" [.str pre, .str name, .str key, .val v, .val now] =
    textOf pre ++ (textOf [46] ++ (textOf name ++ (textOf [46] ++ (textOf key ++ (textOf (bytes "-percentile") ++ (textOf [32] ++ .val (bytes ".2f") v :: textOf [32] ++ .val [100] now :: textOf [10])))))) := rfl

theorem graphite_pct {w : World F} {env : Env F} {r : Ref} {cfg : GraphiteConfig F} {ps : List F} {val : Call F → GoMetrics.Field F} {name : Str}
    (hp : ∀ (i : Nat) p, cfg.percentiles[i]? = some p → ∃ s, ps[i]? = some s ∧ Holds w env r (.stat (.percentile p)) (.float s)) :
    (pctRows cfg ps).map Prod.fst = cfg.percentiles ∧ (∀ x ∈ pctRows cfg ps, Holds w env r (.stat (.percentile x.1)) x.2) ∧
    (graphitePercentiles cfg).map (Stmt.den name val ps) =
      ((pctRows cfg ps).map fun x => graphiteLine cfg.pre name cfg.now (pctKey cfg.formatFloat x.1 ++ bytes "-percentile") x.2).map .ok := by
  refine ⟨?_, fun x hx => ?_, ?_⟩
  · simp only [pctRows, List.map_map]
    exact List.zipIdx_map_fst ..
  · obtain ⟨⟨p, i⟩, hy, rfl⟩ := List.mem_map.1 hx
    obtain ⟨s, h1, h2⟩ := hp i p (List.mem_zipIdx_iff_getElem?.1 hy)
    simpa only [h1, Option.getD_some] using h2
  · simp only [pctRows, graphitePercentiles, List.map_map]
    refine List.map_congr_left ?_
    rintro ⟨p, i⟩ hy
    obtain ⟨s, h1, -⟩ := hp i p (List.mem_zipIdx_iff_getElem?.1 hy)
    simp only [Function.comp_apply, Stmt.den, denArgs, ArgExpr.den, Expr.den, h1, Option.getD_some, percentileKey_eq, format_text, graphiteLine, sysVerb, textOf,
      List.map_append, List.append_assoc]

theorem graphite_of {key : F → Str} {pre name : Str} {now : Int64} {rows : List (String × GoMetrics.Field F)} {prows : List (F × GoMetrics.Field F)} {evs : List (Event F)}
    (h : evs.Perm ((rows.map fun x => graphiteLine pre name now (bytes x.1) x.2) ++ prows.map fun x => graphiteLine pre name now (key x.1 ++ bytes "-percentile") x.2)) (hl : ((rows.map Prod.fst).all fun l => decide (IsLabel (bytes l))) = true) :
    GraphiteBlock key pre name now rows prows evs := by
  refine ⟨labels_of hl, _, _, h, ?_, ?_⟩
  · clear h hl
    induction rows with
    | nil => exact .nil
    | cons row rows ih => exact .cons graphite_line ih
  · clear h hl
    induction prows with
    | nil => exact .nil
    | cons row rows ih => exact .cons graphite_line ih

theorem graphite_block {w : World F} {env : Env F} {name : Str} {r : Ref} {o : Obj F} {evs : List (Event F)} {c : Case F} {cfg : GraphiteConfig F} (hu : Int64.ofInt (GoFloat.toInt (GoFloat.ofInt cfg.durationUnit.toInt : F)) = cfg.durationUnit) (hc : graphiteSwitch cfg o = some c)
    (h : CaseOut w env name r o c evs) : ∃ rows prows, Complete w env r o [] (fun c v => if isTimer o && isDuration c then inUnitInt cfg.durationUnit (GoFloat.ofInt cfg.durationUnit.toInt) v else v) rows ∧
      prows.map Prod.fst = (if isDistribution o then cfg.percentiles else []) ∧ (∀ x ∈ prows, Holds w env r (.stat (.percentile x.1)) x.2) ∧
      GraphiteBlock (pctKey cfg.formatFloat) cfg.pre name cfg.now rows prows evs := by
  obtain ⟨val, ps, hv, hp, hf⟩ := h
  cases o with
  | counter x =>
    simp only [graphiteSwitch, Option.some.injEq] at hc
    subst hc
    obtain ⟨h0, n0, e0⟩ := hv .count rfl
    rw [e0] at h0
    refine ⟨[("count", .int n0)], [], complete_of rfl (.cons ⟨_, h0, rfl⟩ .nil), rfl, by simp, graphite_of (.of_eq (evs_eq hf ?_)) rfl⟩
    simp only [List.map, Stmt.den, denArgs, ArgExpr.den, Expr.den, toFloat, floatDiv, e0]
    dsimp only [List.map, List.append_nil, graphiteLine, sysVerb]
    rfl
  | gauge x =>
    simp only [graphiteSwitch, Option.some.injEq] at hc
    subst hc
    obtain ⟨h0, n0, e0⟩ := hv .value rfl
    rw [e0] at h0
    refine ⟨[("value", .int n0)], [], complete_of rfl (.cons ⟨_, h0, rfl⟩ .nil), rfl, by simp, graphite_of (.of_eq (evs_eq hf ?_)) rfl⟩
    simp only [List.map, Stmt.den, denArgs, ArgExpr.den, Expr.den, toFloat, floatDiv, e0]
    dsimp only [List.map, List.append_nil, graphiteLine, sysVerb]
    rfl
  | gaugeF x =>
    simp only [graphiteSwitch, Option.some.injEq] at hc
    subst hc
    obtain ⟨h0, n0, e0⟩ := hv .value rfl
    rw [e0] at h0
    refine ⟨[("value", .bits n0)], [], complete_of rfl (.cons ⟨_, h0, rfl⟩ .nil), rfl, by simp, graphite_of (.of_eq (evs_eq hf ?_)) rfl⟩
    simp only [List.map, Stmt.den, denArgs, ArgExpr.den, Expr.den, toFloat, floatDiv, e0]
    dsimp only [List.map, List.append_nil, graphiteLine, sysVerb]
    rfl
  | hist x =>
    simp only [graphiteSwitch, Option.some.injEq] at hc
    subst hc
    obtain ⟨h0, n0, e0⟩ := hv .count rfl
    rw [e0] at h0
    obtain ⟨h1, n1, e1⟩ := hv (.stat .min) rfl
    rw [e1] at h1
    obtain ⟨h2, n2, e2⟩ := hv (.stat .max) rfl
    rw [e2] at h2
    obtain ⟨h3, n3, e3⟩ := hv (.stat .mean) rfl
    rw [e3] at h3
    obtain ⟨h4, n4, e4⟩ := hv (.stat .stdDev) rfl
    rw [e4] at h4
    obtain ⟨k1, k2, k3⟩ := graphite_pct (val := val) (name := name) (hp _ · · rfl)
    have := evs_eq hf (es := ([("count", .int n0), ("min", .int n1), ("max", .int n2), ("mean", .float n3), ("std-dev", .float n4)].map fun x : String × GoMetrics.Field F => graphiteLine cfg.pre name cfg.now (bytes x.1) x.2) ++ ((pctRows cfg ps).map fun x => graphiteLine cfg.pre name cfg.now (pctKey cfg.formatFloat x.1 ++ bytes "-percentile") x.2)) (by
      simp only [List.map_append, k3]
      exact congrArg₂ (· ++ ·) (by (simp only [List.map, Stmt.den, denArgs, ArgExpr.den, Expr.den, toFloat, floatDiv, e0, e1, e2, e3, e4]; dsimp only [graphiteLine, sysVerb]; rfl)) rfl)
    refine ⟨[("count", .int n0), ("min", .int n1), ("max", .int n2), ("mean", .float n3), ("std-dev", .float n4)], pctRows cfg ps, complete_of rfl (.cons ⟨_, h0, rfl⟩ <| .cons ⟨_, h1, rfl⟩ <| .cons ⟨_, h2, rfl⟩ <| .cons ⟨_, h3, rfl⟩ <| .cons ⟨_, h4, rfl⟩ .nil), k1, k2, graphite_of ?_ rfl⟩
    rw [this]
    
  | meter x =>
    simp only [graphiteSwitch, Option.some.injEq] at hc
    subst hc
    obtain ⟨h0, n0, e0⟩ := hv .count rfl
    rw [e0] at h0
    obtain ⟨h1, n1, e1⟩ := hv (.rates .rate1) rfl
    rw [e1] at h1
    obtain ⟨h2, n2, e2⟩ := hv (.rates .rate5) rfl
    rw [e2] at h2
    obtain ⟨h3, n3, e3⟩ := hv (.rates .rate15) rfl
    rw [e3] at h3
    obtain ⟨h4, n4, e4⟩ := hv (.rates .rateMean) rfl
    rw [e4] at h4
    refine ⟨[("count", .int n0), ("one-minute", .float n1), ("five-minute", .float n2), ("fifteen-minute", .float n3), ("mean", .float n4)], [], complete_of rfl (.cons ⟨_, h0, rfl⟩ <| .cons ⟨_, h1, rfl⟩ <| .cons ⟨_, h2, rfl⟩ <| .cons ⟨_, h3, rfl⟩ <| .cons ⟨_, h4, rfl⟩ .nil), rfl, by simp, graphite_of (.of_eq (evs_eq hf ?_)) rfl⟩
    simp only [List.map, Stmt.den, denArgs, ArgExpr.den, Expr.den, toFloat, floatDiv, e0, e1, e2, e3, e4]
    dsimp only [List.map, List.append_nil, graphiteLine, sysVerb]
    rfl
  | timer x =>
    simp only [graphiteSwitch, Option.some.injEq] at hc
    subst hc
    obtain ⟨h0, n0, e0⟩ := hv .count rfl
    rw [e0] at h0
    obtain ⟨h1, n1, e1⟩ := hv (.stat .min) rfl
    rw [e1] at h1
    obtain ⟨h2, n2, e2⟩ := hv (.stat .max) rfl
    rw [e2] at h2
    obtain ⟨h3, n3, e3⟩ := hv (.stat .mean) rfl
    rw [e3] at h3
    obtain ⟨h4, n4, e4⟩ := hv (.stat .stdDev) rfl
    rw [e4] at h4
    obtain ⟨h5, n5, e5⟩ := hv (.rates .rate1) rfl
    rw [e5] at h5
    obtain ⟨h6, n6, e6⟩ := hv (.rates .rate5) rfl
    rw [e6] at h6
    obtain ⟨h7, n7, e7⟩ := hv (.rates .rate15) rfl
    rw [e7] at h7
    obtain ⟨h8, n8, e8⟩ := hv (.rates .rateMean) rfl
    rw [e8] at h8
    by_cases h0' : cfg.durationUnit = 0
    · exfalso
      simp only [hu] at hf
      rcases hf with _ | ⟨-, hf⟩
      rcases hf with _ | ⟨hf, -⟩
      simp [Stmt.den, denArgs, ArgExpr.den, Expr.den, intDiv, e1, h0'] at hf
    obtain ⟨k1, k2, k3⟩ := graphite_pct (val := val) (name := name) (hp _ · · rfl)
    have := evs_eq hf (es := ([("count", .int n0), ("min", .int (n1 / cfg.durationUnit)), ("max", .int (n2 / cfg.durationUnit)), ("mean", .float (GoFloat.div n3 (GoFloat.ofInt cfg.durationUnit.toInt))), ("std-dev", .float (GoFloat.div n4 (GoFloat.ofInt cfg.durationUnit.toInt)))].map fun x : String × GoMetrics.Field F => graphiteLine cfg.pre name cfg.now (bytes x.1) x.2) ++ ((pctRows cfg ps).map fun x => graphiteLine cfg.pre name cfg.now (pctKey cfg.formatFloat x.1 ++ bytes "-percentile") x.2) ++ ([("one-minute", .float n5), ("five-minute", .float n6), ("fifteen-minute", .float n7), ("mean-rate", .float n8)].map fun x : String × GoMetrics.Field F => graphiteLine cfg.pre name cfg.now (bytes x.1) x.2)) (by
      simp only [List.map_append, k3]
      exact congrArg₂ (· ++ ·) (congrArg₂ (· ++ ·) (by (simp only [List.map, Stmt.den, denArgs, ArgExpr.den, Expr.den, toFloat, floatDiv, hu, intDiv, h0', if_neg, not_false_eq_true, e0, e1, e2, e3, e4, e5, e6, e7, e8]; dsimp only [graphiteLine, sysVerb]; rfl)) rfl) (by (simp only [List.map, Stmt.den, denArgs, ArgExpr.den, Expr.den, toFloat, floatDiv, hu, intDiv, h0', if_neg, not_false_eq_true, e0, e1, e2, e3, e4, e5, e6, e7, e8]; dsimp only [graphiteLine, sysVerb]; rfl)))
    refine ⟨[("count", .int n0), ("min", .int (n1 / cfg.durationUnit)), ("max", .int (n2 / cfg.durationUnit)), ("mean", .float (GoFloat.div n3 (GoFloat.ofInt cfg.durationUnit.toInt))), ("std-dev", .float (GoFloat.div n4 (GoFloat.ofInt cfg.durationUnit.toInt))), ("one-minute", .float n5), ("five-minute", .float n6), ("fifteen-minute", .float n7), ("mean-rate", .float n8)], pctRows cfg ps, complete_of rfl (.cons ⟨_, h0, rfl⟩ <| .cons ⟨_, h1, rfl⟩ <| .cons ⟨_, h2, rfl⟩ <| .cons ⟨_, h3, rfl⟩ <| .cons ⟨_, h4, rfl⟩ <| .cons ⟨_, h5, rfl⟩ <| .cons ⟨_, h6, rfl⟩ <| .cons ⟨_, h7, rfl⟩ <| .cons ⟨_, h8, rfl⟩ .nil), k1, k2, graphite_of ?_ rfl⟩
    rw [this]
    rw [List.append_assoc]
    refine (List.Perm.append_left _ List.perm_append_comm).trans ?_
    rw [← List.append_assoc]
    exact .refl _
  | health x => simp [graphiteSwitch] at hc
  | sample x => simp [graphiteSwitch] at hc
  | ewma x => simp [graphiteSwitch] at hc

end GoMetrics
