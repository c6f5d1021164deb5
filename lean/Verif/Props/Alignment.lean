import Verif.Lemmas.Race
import Verif.Model.Layout
/-
C87: alignment of atomic operations.
-/
namespace GoMetrics.Mem

/-- C87.  In every execution, on 32-bit and on 64-bit platforms, wherever the allocator puts
the structs (at addresses that are multiples of 8): every atomic operation is on a
field for which sync/atomic has a function, and at an address that is a multiple of
the width of the operation.  So no 64-bit operation panics on a 32-bit platform. -/
theorem C87_aligned {tr : Trace} (hx : Execution tr) (arch : Arch) (base : Obj → Nat)
    (hb : ∀ o, 8 ∣ base o) {i : Nat} {t : Tid} {x : Loc} (h : tr[i]? = some ⟨t, .atomic x⟩) :
    ∃ w p, atomicWidth x = some w ∧ addr arch (base x.obj) x = some p ∧ (w = 4 ∨ w = 8) ∧ w ∣ p := by
  have hg : x.prot = .atomic := hx.good h
  have hbase := hb x.obj
  rcases x with ⟨⟨k, n⟩, g⟩
  generalize base ⟨k, n⟩ = b at hbase
  have key : ∀ w off, atomicWidth ⟨⟨k, n⟩, g⟩ = some w → offsetFrom arch 0 (structOf k) g = some off →
      (w = 4 ∨ w = 8) → w ∣ off → ∃ w p, atomicWidth ⟨⟨k, n⟩, g⟩ = some w ∧
        addr arch b ⟨⟨k, n⟩, g⟩ = some p ∧ (w = 4 ∨ w = 8) ∧ w ∣ p := by
    intro w off h1 h2 h3 h4
    refine ⟨w, b + off, h1, by simp [addr, h2], h3, Nat.dvd_add ?_ h4⟩
    rcases h3 with rfl | rfl
    · exact Dvd.dvd.trans (by decide) hbase
    · exact hbase
  cases k <;> cases g <;> first
    | (simp [Loc.prot, prot] at hg; done)
    | cases arch <;> first
      | exact key 8 0 rfl rfl (.inr rfl) (by decide)
      | exact key 8 8 rfl rfl (.inr rfl) (by decide)
      | exact key 8 16 rfl rfl (.inr rfl) (by decide)
      | exact key 8 24 rfl rfl (.inr rfl) (by decide)
      | exact key 8 32 rfl rfl (.inr rfl) (by decide)
      | exact key 4 0 rfl rfl (.inl rfl) (by decide)
      | exact key 4 24 rfl rfl (.inl rfl) (by decide)
      | exact key 4 48 rfl rfl (.inl rfl) (by decide)
      | exact key 4 80 rfl rfl (.inl rfl) (by decide)

/-- An EWMA created and ticked: the hypotheses are met. -/
def exTick : Trace :=
  [⟨0, .new globals []⟩, ⟨0, .read ⟨globals, .useNilMetrics⟩ none⟩, ⟨0, .new ⟨.ewma, 6⟩ []⟩,
   ⟨0, .atomic ⟨⟨.ewma, 6⟩, .init⟩⟩, ⟨0, .acq ⟨.ewma, 6⟩ true⟩, ⟨0, .atomic ⟨⟨.ewma, 6⟩, .init⟩⟩,
   ⟨0, .atomic ⟨⟨.ewma, 6⟩, .init⟩⟩, ⟨0, .atomic ⟨⟨.ewma, 6⟩, .uncounted⟩⟩,
   ⟨0, .atomic ⟨⟨.ewma, 6⟩, .uncounted⟩⟩, ⟨0, .atomic ⟨⟨.ewma, 6⟩, .rate⟩⟩, ⟨0, .rel ⟨.ewma, 6⟩ true⟩]

theorem exTick_execution : Execution exTick := by
  refine .of 1 (by decide +kernel) (by decide) ?_
  intro t ht
  obtain rfl : t = 0 := by omega
  have h2 : Lang .user (proj 0 exTick |>.drop 3) .ok :=
    Lang.userThen (c := .ewma .tick ⟨.ewma, 6⟩)
      (.seq (.act _) (.altR (.locked (.seq (.act _) (.altR (.seq (.act _) (.seq (.seq (.act _) (.act _)) (.act _)))))))) .userNil
  have h1 := Lang.userThen (c := .newEWMA) (p := [_, _]) (r := .ok)
    (.seq (.act _) (.altR (.alloc (o := ⟨.ewma, 6⟩) rfl .skip))) h2
  exact ⟨_, .ok, Lang.userAct (a := .new globals []) (by simp [UserAct]) h1, List.prefix_rfl⟩

/-- On a 32-bit platform the rate of an EWMA at address 800 is at 816. -/
example : ∃ w p, atomicWidth ⟨⟨.ewma, 6⟩, .rate⟩ = some w ∧ addr .bits32 800 ⟨⟨.ewma, 6⟩, .rate⟩ = some p ∧
    (w = 4 ∨ w = 8) ∧ w ∣ p :=
  C87_aligned exTick_execution .bits32 (fun _ => 800) (fun _ => by decide) (i := 9) (t := 0) rfl

/-- The order of the fields matters: with `init` in front, `uncounted` would be
misaligned on 32-bit platforms, and only there. -/
example : offsetFrom .bits32 0 [(.init, .uint32), (.uncounted, .int64)] .uncounted = some 4 ∧
    offsetFrom .bits64 0 [(.init, .uint32), (.uncounted, .int64)] .uncounted = some 8 := by decide

end GoMetrics.Mem
