import Verif.Spec.TimerConc
import Verif.Lemmas.Machine
import Verif.Lemmas.RegistryConc
import Mathlib.Tactic.SplitIfs

/-! Invariants of concurrent timer calls. -/

namespace GoMetrics
open Spec

variable {σ ρ : Type}

inductive TmStep (upd : σ → Int64 × ρ → σ) (t : Nat) (s : TimerS σ) : TFrame σ ρ → TimerS σ → TFrame σ ρ → List (CEv TOp (TRes σ)) → Prop where
  | callStop : TmStep upd t s .idle s .stop [.inv t .stop]
  | call {o} : o ≠ .stop → TmStep upd t s .idle s (.lock o) [.inv t o]
  | lock {o} : s.mutex = none → TmStep upd t s (.lock o) { s with mutex := some t } (.locked o) []
  | snapHist : TmStep upd t s (.locked .snapshot) s (.snapMeter s.hist) []
  | update {o d x} : records o d → TmStep upd t s (.locked o) { s with hist := upd s.hist (d, x) } (.mark o (d, x)) []
  | mark1 {o e} : s.stopped = true → TmStep upd t s (.mark o e) s (.unlock o .unit) [.lin t o .unit]
  | mark0 {o e} : s.stopped = false → TmStep upd t s (.mark o e) s (.add o) [.lin t o .unit]
  | add {o} : TmStep upd t s (.add o) { s with count := s.count + 1 } (.unlock o .unit) []
  | snapMeter {h} : TmStep upd t s (.snapMeter h) s (.unlock .snapshot (.snap h s.count)) [.lin t .snapshot (.snap h s.count)]
  | unlock {o r} : TmStep upd t s (.unlock o r) { s with mutex := none } (.ret o r) []
  | stop : TmStep upd t s .stop { s with stopped := true } (.ret .stop .unit) [.lin t .stop .unit]
  | ret {o r} : TmStep upd t s (.ret o r) s .idle [.ret t o r]

theorem duration_records {o : TOp} {now d} (h : o.duration now = some d) : records o d := by
  cases o <;> simp [TOp.duration] at h <;> subst h
  · rfl
  · exact ⟨now, rfl⟩

theorem timerStep_rel {upd : σ → Int64 × ρ → σ} {t i s l s' l' es} (h : timerStep upd t i s l = some (s', l', es)) : TmStep upd t s l s' l' es := by
  unfold timerStep at h
  split at h
  case h_6 =>
    simp only [Option.some.injEq, Prod.mk.injEq] at h
    obtain ⟨rfl, rfl, rfl⟩ := h
    split_ifs with hs
    · exact .mark1 hs
    · exact .mark0 (by simpa using hs)
  case h_5 =>
    simp only [Option.map_eq_some_iff, Prod.mk.injEq] at h
    obtain ⟨d, hd, rfl, rfl, rfl⟩ := h
    exact .update (duration_records hd)
  all_goals try split_ifs at h
  all_goals try simp only [Option.some.injEq, Prod.mk.injEq, reduceCtorEq] at h
  all_goals obtain ⟨rfl, rfl, rfl⟩ := h
  all_goals first
    | constructor; done
    | (constructor; assumption)

def TFrame.holds : TFrame σ ρ → Bool
  | .locked _ | .mark _ _ | .add _ | .snapMeter _ | .unlock _ _ => true
  | _ => false

def TFrame.abs : TFrame σ ρ → TS TOp (TRes σ)
  | .idle => .idle
  | .lock o | .locked o | .mark o _ => .pend o
  | .snapMeter _ => .pend .snapshot
  | .stop => .pend .stop
  | .add o => .done o .unit
  | .unlock o r | .ret o r => .done o r

theorem TmStep.localEv {upd : σ → Int64 × ρ → σ} {t s l s' l' es} (h : TmStep upd t s l s' l' es) : LocalEv t l.abs es l'.abs := by
  cases h <;> constructor

theorem timer_wf {upd : σ → Int64 × ρ → σ} {s0 sched s ls tr} (h : (timerMachine upd).run (.init s0) (fun _ => .idle) sched = some (s, ls, tr)) :
    Wf allIdle tr (fun t => (ls t).abs) := by
  have := (timerMachine upd).wf (l0 := fun _ => TFrame.idle) some TFrame.abs (fun _ => True) (fun _ => trivial)
    (fun t i s l s' l' es _ hst => ⟨trivial, by simpa using (timerStep_rel hst).localEv⟩) sched s ls tr h
  rw [List.filterMap_some] at this
  exact this

/-- The sample and the count lag behind, or are ahead of, the log while somebody is in the middle of an update. -/
structure TmInv (upd : σ → Int64 × ρ → σ) (s0 : σ) (s : TimerS σ) (ls : Nat → TFrame σ ρ) (log : TimerLog ρ) : Prop where
  mutex : ∀ t, (ls t).holds = true ↔ s.mutex = some t
  stopped : log.stopped = s.stopped
  mark : ∀ t o e, ls t = .mark o e → records o e.1 ∧ s.hist = (log.events ++ [e]).foldl upd s0
  hist : (∀ t o e, ls t ≠ .mark o e) → s.hist = log.events.foldl upd s0
  add : ∀ t o, ls t = .add o → s.count + 1 = Int64.ofNat log.marked
  count : (∀ t o, ls t ≠ .add o) → s.count = Int64.ofNat log.marked
  snap : ∀ t h, ls t = .snapMeter h → h = s.hist

theorem TmInv.step {upd : σ → Int64 × ρ → σ} {s0 s ls log} (hi : TmInv upd s0 s ls log) {t s' l' es} (h : TmStep upd t s (ls t) s' l' es) :
    ∃ log', LegalRun (TimerCall upd s0) log (linSeq es) log' ∧ TmInv upd s0 s' (Function.update ls t l') log' := by
  obtain ⟨h1, h2, h3, h4, h5, h6, h7⟩ := hi
  have alone : (ls t).holds = true → ∀ u, u ≠ t → (ls u).holds = false := by
    intro ht u hu
    by_contra hc
    have h8 := (h1 t).1 ht
    rw [(h1 u).1 (by simpa using hc)] at h8
    exact hu (Option.some.inj h8)
  have f1 := h1 t
  generalize hl : ls t = l at h f1 alone
  have noMark : l.holds = true → (∀ o e, l ≠ .mark o e) → ∀ u o e, ls u ≠ .mark o e := by
    intro hh hm u o e hc
    rcases eq_or_ne u t with rfl | hne
    · exact hm o e (hl ▸ hc)
    · have := alone hh u hne
      rw [hc] at this
      simp [TFrame.holds] at this
  have noAdd : l.holds = true → (∀ o, l ≠ .add o) → ∀ u o, ls u ≠ .add o := by
    intro hh hm u o hc
    rcases eq_or_ne u t with rfl | hne
    · exact hm o (hl ▸ hc)
    · have := alone hh u hne
      rw [hc] at this
      simp [TFrame.holds] at this
  have noSnap : l.holds = true → (∀ o, l ≠ .snapMeter o) → ∀ u o, ls u ≠ .snapMeter o := by
    intro hh hm u o hc
    rcases eq_or_ne u t with rfl | hne
    · exact hm o (hl ▸ hc)
    · have := alone hh u hne
      rw [hc] at this
      simp [TFrame.holds] at this
  cases h with
  | callStop =>
    refine ⟨log, .nil, ⟨?_, h2, ?_, ?_, ?_, ?_, ?_⟩⟩ <;> simp only [Function.update_apply] <;> grind [TFrame.holds]
  | call ho =>
    refine ⟨log, .nil, ⟨?_, h2, ?_, ?_, ?_, ?_, ?_⟩⟩ <;> simp only [Function.update_apply] <;> grind [TFrame.holds]
  | lock hm =>
    refine ⟨log, .nil, ⟨?_, h2, ?_, ?_, ?_, ?_, ?_⟩⟩ <;> simp only [Function.update_apply] <;> grind [TFrame.holds]
  | snapHist =>
    refine ⟨log, .nil, ⟨?_, h2, ?_, ?_, ?_, ?_, ?_⟩⟩ <;> simp only [Function.update_apply] <;> grind [TFrame.holds]
  | update hr =>
    have g := h4 (noMark rfl (by simp))
    have g2 := noMark rfl (by simp)
    have g3 := noSnap rfl (by simp)
    refine ⟨log, .nil, ⟨?_, h2, ?_, fun hc => absurd (Function.update_self ..) (hc t _ _), ?_, ?_, ?_⟩⟩ <;> simp only [Function.update_apply] <;> grind [TFrame.holds]
  | mark1 hs =>
    rename_i o e
    obtain ⟨g1, g2⟩ := h3 t o e hl
    have g3 : ∀ u, u ≠ t → ∀ o e, ls u ≠ .mark o e := fun u hu o e hc => by
      have := alone rfl u hu
      simp [hc, TFrame.holds] at this
    refine ⟨_, .cons (.record (x := e.2) g1) .nil, ⟨?_, h2, ?_, ?_, ?_, ?_, ?_⟩⟩ <;> simp only [Function.update_apply, h2, hs, if_true] <;>
      grind [TFrame.holds]
  | mark0 hs =>
    rename_i o e
    obtain ⟨g1, g2⟩ := h3 t o e hl
    have g3 : ∀ u, u ≠ t → ∀ o e, ls u ≠ .mark o e := fun u hu o e hc => by
      have := alone rfl u hu
      simp [hc, TFrame.holds] at this
    have g4 := noAdd rfl (by simp)
    have g5 := h6 g4
    have g6 : Int64.ofNat (log.marked + 1) = Int64.ofNat log.marked + 1 := Int64.ofNat_add _ _
    refine ⟨_, .cons (.record (x := e.2) g1) .nil, ⟨?_, h2, ?_, ?_, ?_, fun hc => absurd (Function.update_self ..) (hc t _), ?_⟩⟩ <;>
      simp only [Function.update_apply, h2, hs, Bool.false_eq_true, if_false] <;>
      grind [TFrame.holds]
  | add =>
    rename_i o
    have g1 := h5 t o hl
    have g3 : ∀ u, u ≠ t → ∀ o, ls u ≠ .add o := fun u hu o hc => by
      have := alone rfl u hu
      simp [hc, TFrame.holds] at this
    refine ⟨log, .nil, ⟨?_, h2, ?_, ?_, ?_, ?_, ?_⟩⟩ <;> simp only [Function.update_apply] <;> grind [TFrame.holds]
  | snapMeter =>
    rename_i h
    have g1 := h7 t h hl
    have g2 := h4 (noMark rfl (by simp))
    have g3 := h6 (noAdd rfl (by simp))
    refine ⟨log, ?_, ⟨?_, h2, ?_, ?_, ?_, ?_, ?_⟩⟩
    · rw [g1, g2, g3]
      exact .cons .snapshot .nil
    all_goals simp only [Function.update_apply]
    all_goals grind [TFrame.holds]
  | unlock =>
    refine ⟨log, .nil, ⟨?_, h2, ?_, ?_, ?_, ?_, ?_⟩⟩ <;> simp only [Function.update_apply] <;> grind [TFrame.holds]
  | stop =>
    refine ⟨_, .cons .stop .nil, ⟨?_, rfl, ?_, ?_, ?_, ?_, ?_⟩⟩ <;> simp only [Function.update_apply] <;> grind [TFrame.holds]
  | ret =>
    refine ⟨log, .nil, ⟨?_, h2, ?_, ?_, ?_, ?_, ?_⟩⟩ <;> simp only [Function.update_apply] <;> grind [TFrame.holds]

theorem timer_inv {upd : σ → Int64 × ρ → σ} {s0 sched s ls tr} (h : (timerMachine upd).run (.init s0) (fun _ => .idle) sched = some (s, ls, tr)) :
    ∃ log, LegalRun (TimerCall upd s0) ⟨[], false, 0⟩ (linSeq tr) log ∧ TmInv upd s0 s ls log := by
  refine (timerMachine upd).induct (fun s ls tr => ∃ log, LegalRun (TimerCall upd s0) ⟨[], false, 0⟩ (linSeq tr) log ∧ TmInv upd s0 s ls log)
    ⟨⟨[], false, 0⟩, .nil, ?_⟩ ?_ sched s ls tr h
  · constructor <;> simp [TFrame.holds, TimerS.init]
  · rintro s ls tr t i s' l' es ⟨log, hr, hi⟩ hst
    obtain ⟨log', hr', hi'⟩ := hi.step (timerStep_rel hst)
    exact ⟨log', by rw [linSeq_append]; exact hr.append hr', hi'⟩

/-- Without `Stop`: the meter counts all events. -/
theorem TimerCall.counts {upd : σ → Int64 × ρ → σ} {s0 : σ} {log log' : TimerLog ρ} {l : List (TOp × TRes σ)} (h : LegalRun (TimerCall upd s0) log l log')
    (h0 : log.stopped = false ∧ log.marked = log.events.length) (hs : ∀ x ∈ l, x.1 ≠ .stop) :
    (log'.stopped = false ∧ log'.marked = log'.events.length) ∧
      ∀ x ∈ l, x.1 = .snapshot → ∃ events : List (Int64 × ρ), x.2 = .snap (events.foldl upd s0) (Int64.ofNat events.length) := by
  induction h with
  | nil => exact ⟨h0, by simp⟩
  | cons hc _ ih =>
    simp only [List.mem_cons, forall_eq_or_imp] at hs ⊢
    cases hc with
    | record hr =>
      obtain ⟨h1, h2⟩ := ih (by simpa [h0.1] using h0.2) hs.2
      exact ⟨h1, fun h => by simp [h, records] at hr, h2⟩
    | snapshot =>
      obtain ⟨h1, h2⟩ := ih h0 hs.2
      exact ⟨h1, fun _ => ⟨_, by rw [h0.2]⟩, h2⟩
    | stop => exact absurd rfl hs.1

end GoMetrics
