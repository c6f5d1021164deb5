import Verif.Spec.WaitFree
import Verif.Lemmas.Machine
import Verif.Lemmas.AtomicConc
import Verif.Lemmas.EwmaConc
import Verif.Lemmas.Meter

/-! Lemmas for C109. -/

namespace GoMetrics
open Spec
variable {S L I E Op R : Type}

/-- The goroutine is in the call `o`. -/
def TS.isIn (o : Op) : TS Op R → Prop
  | .idle => False
  | .pend o' => o' = o
  | .done o' _ => o' = o

theorem Wf.isIn {st st' : Nat → TS Op R} {b} (h : Wf st b st') {t : Nat} {o : Op} (hi : (st t).isIn o) (h1 : ∀ o', CEv.inv t o' ∉ b)
    (h2 : ∀ o' r, CEv.ret t o' r ∉ b) : (st' t).isIn o := by
  induction h with
  | nil => exact hi
  | cons hs _ ih =>
    refine ih ?_ (fun o' hm => h1 o' (.tail _ hm)) (fun o' r hm => h2 o' r (.tail _ hm))
    cases hs with
    | @inv u o' hu =>
      by_cases e : t = u
      · subst e; exact absurd (List.mem_cons_self ..) (h1 o')
      · rwa [Function.update_of_ne e]
    | @lin u o' r hu =>
      by_cases e : t = u
      · subst e
        rw [hu] at hi
        rw [Function.update_self]
        exact hi
      · rwa [Function.update_of_ne e]
    | @ret u o' r hu =>
      by_cases e : t = u
      · subst e; exact absurd (List.mem_cons_self ..) (h2 o' r)
      · rwa [Function.update_of_ne e]

theorem inCall_isIn {tr : List (CEv Op R)} {st : Nat → TS Op R} {t : Nat} {o : Op} (h : InCall t o tr) (hw : Wf allIdle tr st) : (st t).isIn o := by
  obtain ⟨a, b, rfl, h1, h2⟩ := h
  obtain ⟨s1, _, hb⟩ := hw.split
  cases hb with
  | cons hs hb =>
    cases hs with
    | inv hu => exact hb.isIn (by rw [Function.update_self]; rfl) h1 h2

/-- If every step of a goroutine in the call brings it nearer to its return, the call never waits. -/
theorem neverWaits {M : Machine S L I E} {proj : E → Option (CEv Op R)} {s0 : S} {l0 : Nat → L} {go : I} {o : Op} {n : Nat} (abs : L → TS Op R) (left : L → Nat)
    (hwf : ∀ {sched s ls tr}, M.run s0 l0 sched = some (s, ls, tr) → Wf allIdle (tr.filterMap proj) (fun t => abs (ls t)))
    (Q : L → Prop) (hQ0 : ∀ t, Q (l0 t)) (hQs : ∀ t i s l s' l' es, Q l → M.step t i s l = some (s', l', es) → Q l')
    (hgo : ∀ t s l, (abs l).isIn o → Q l → (M.step t go s l).isSome) (hpos : ∀ l, (abs l).isIn o → 0 < left l) (hmax : ∀ l, (abs l).isIn o → Q l → left l ≤ n)
    (hstep : ∀ t i s l s' l' es, (abs l).isIn o → Q l → M.step t i s l = some (s', l', es) →
      ((abs l').isIn o ∧ left l' < left l) ∨ ∃ r, CEv.ret t o r ∈ es.filterMap proj) :
    NeverWaits M (fun tr => tr.filterMap proj) s0 l0 go o n := by
  have hQ : ∀ {sched s ls tr}, M.run s0 l0 sched = some (s, ls, tr) → ∀ t, Q (ls t) := fun h =>
    M.induct (fun _ ls _ => ∀ t, Q (ls t)) hQ0 (fun s ls tr t i s' l' es hq hst u => by
      by_cases e : u = t
      · subst e; rw [Function.update_self]; exact hQs _ _ _ _ _ _ _ (hq _) hst
      · rw [Function.update_of_ne e]; exact hq u) _ _ _ _ h
  constructor
  · exact fun hr hi => hgo _ _ _ (inCall_isIn hi (hwf hr)) (hQ hr _)
  · intro sched s ls tr t sched' s' ls' tr' hr hi hr' hn
    have hin := inCall_isIn hi (hwf hr)
    have hq := hQ hr t
    have hle := (hmax _ hin hq).trans hn
    clear hr hi hn hmax hgo hwf hQ hQ0
    induction sched' generalizing s ls tr' with
    | nil => exact absurd (hpos _ hin) (by simp [turns] at hle; omega)
    | cons p sched' ih =>
      obtain ⟨u, i⟩ := p
      simp only [Machine.run] at hr'
      cases hst : M.step u i s (ls u) with
      | none => simp [hst] at hr'
      | some x =>
        obtain ⟨s1, l1, es⟩ := x
        simp only [hst] at hr'
        cases hr2 : M.run s1 (Function.update ls u l1) sched' with
        | none => simp [hr2] at hr'
        | some y =>
          obtain ⟨s2, ls2, es2⟩ := y
          simp only [hr2, Option.some.injEq, Prod.mk.injEq] at hr'
          obtain ⟨rfl, rfl, rfl⟩ := hr'
          by_cases e : t = u
          · subst e
            rcases hstep _ _ _ _ _ _ _ hin hq hst with ⟨h1, h2⟩ | ⟨r, h⟩
            · obtain ⟨r, h⟩ := ih hr2 (by rwa [Function.update_self]) (by rw [Function.update_self]; exact hQs _ _ _ _ _ _ _ hq hst) (by
                rw [Function.update_self]
                simp [turns] at hle ⊢
                omega)
              exact ⟨r, by simp only [List.filterMap_append, List.mem_append]; exact .inr h⟩
            · exact ⟨r, by simp only [List.filterMap_append, List.mem_append]; exact .inl h⟩
          · obtain ⟨r, h⟩ := ih hr2 (by rwa [Function.update_of_ne e]) (by rwa [Function.update_of_ne e]) (by
              rw [Function.update_of_ne e]
              have : (u == t) = false := by simpa using fun h => e h.symm
              simpa [turns, this] using hle)
            exact ⟨r, by simp only [List.filterMap_append, List.mem_append]; exact .inr h⟩
  · intro sched s ls tr t hr hi
    have hin := inCall_isIn hi (hwf hr)
    have hq := hQ hr t
    have key : ∀ m s ls, (abs (ls t)).isIn o → Q (ls t) → left (ls t) ≤ m →
        ∃ j ≤ m, ∃ s' ls' tr' r, M.run s ls (List.replicate j (t, go)) = some (s', ls', tr') ∧ CEv.ret t o r ∈ tr'.filterMap proj := by
      intro m
      induction m with
      | zero => intro s ls hin _ hle; exact absurd (hpos _ hin) (by omega)
      | succ m ih =>
        intro s ls hin hq hle
        obtain ⟨⟨s1, l1, es⟩, hst⟩ := Option.isSome_iff_exists.mp (hgo t s _ hin hq)
        rcases hstep _ _ _ _ _ _ _ hin hq hst with ⟨h1, h2⟩ | ⟨r, h⟩
        · obtain ⟨j, hj, s', ls', tr', r, h3, h4⟩ := ih s1 (Function.update ls t l1) (by rwa [Function.update_self])
            (by rw [Function.update_self]; exact hQs _ _ _ _ _ _ _ hq hst) (by rw [Function.update_self]; omega)
          refine ⟨j + 1, by omega, s', ls', es ++ tr', r, ?_, ?_⟩
          · simp only [List.replicate_succ, Machine.run, hst, h3]
          · simp only [List.filterMap_append, List.mem_append]; exact .inr h4
        · exact ⟨1, by omega, s1, Function.update ls t l1, es ++ [], r, by simp only [List.replicate_succ, List.replicate_zero, Machine.run, hst], by simpa using h⟩
    exact key n s ls hin hq (hmax _ hin hq)

/-! ### How far a goroutine is from its return -/

def AtomL.left : AtomL Op R → Nat
  | .idle => 0
  | .run _ => 2
  | .done _ _ => 1

theorem atom_neverWaits (eff : S → Op → S × R) (s0 : S) (o : Op) :
    NeverWaits (atomMachine eff) (fun tr => tr.filterMap some) s0 (fun _ => .idle) .step o 2 := by
  refine neverWaits AtomL.abs AtomL.left (fun h => by rw [List.filterMap_some]; exact (atom_run h).1) (fun _ => True) (fun _ => trivial) (fun _ _ _ _ _ _ _ _ _ => trivial) ?_ ?_ ?_ ?_
  · intro t s l h _; cases l <;> first | exact h.elim | rfl
  · intro l h; cases l <;> first | exact h.elim | exact Nat.succ_pos _
  · intro l h _; cases l <;> simp [AtomL.left]
  · intro t i s l s' l' es h _ hst
    change atomStep eff t i s l = some (s', l', es) at hst
    unfold atomStep at hst
    split at hst <;> cases hst
    · exact h.elim
    · exact .inl ⟨h, by simp [AtomL.left]⟩
    · cases h; exact .inr ⟨_, by simp; rfl⟩

variable {F : Type} [GoFloat F]

def EPc.left : EPc F → Nat
  | .upd _ | .rd => 2
  | .ret _ _ => 1
  | _ => 0

theorem ewma_neverWaits (alpha : F) (go : EwmaCall) {o : EwmaCall} (ho : o ≠ .tick) :
    NeverWaits (ewmaMachine alpha) (fun tr => tr.filterMap some) .zero (fun _ => .idle) go o 2 := by
  have htick : ∀ p : TPc F, ¬ (EPc.abs (.tick p)).isIn o := by
    intro p h; cases p <;> exact ho h.symm
  refine neverWaits EPc.abs EPc.left (fun h => by rw [List.filterMap_some]; exact ewma_wf alpha h) (fun _ => True) (fun _ => trivial) (fun _ _ _ _ _ _ _ _ _ => trivial) ?_ ?_ ?_ ?_
  · intro t s l h _; cases l <;> first | exact h.elim | exact (htick _ h).elim | rfl
  · intro l h; cases l <;> first | exact h.elim | exact (htick _ h).elim | exact Nat.succ_pos _
  · intro l h _; cases l <;> simp [EPc.left]
  · intro t i s l s' l' es h _ hst
    cases l <;> first | exact h.elim | exact (htick _ h).elim | skip
    all_goals simp only [ewmaMachine, Option.some.injEq, Prod.mk.injEq] at hst; obtain ⟨rfl, rfl, rfl⟩ := hst
    · exact .inl ⟨h, by simp [EPc.left]⟩
    · exact .inl ⟨h, by simp [EPc.left]⟩
    · cases h; exact .inr ⟨_, by simp; rfl⟩

def MPc.left : MPc F → Nat
  | .idle | .tickA .. => 0
  | .mark0 _ => 14
  | .mark1 _ => 13
  | .markA _ a => 12 - a.idx
  | .us1 _ => 9
  | .us5 .. => 8
  | .us15 .. => 7
  | .usMean .. => 6
  | .st1 .. => 5
  | .st5 .. => 4
  | .st15 .. => 3
  | .stMean .. => 2
  | .stop0 => 2
  | .count0 => 2
  | .sn0 => 6
  | .sn1 _ => 5
  | .sn5 .. => 4
  | .sn15 .. => 3
  | .snMean .. => 2
  | .ret .. => 1

/-- Only `Mark` and the tick of the clock end with `updateSnapshot`. -/
def MPc.sane : MPc F → Prop
  | .us1 c | .us5 c _ | .us15 c _ _ | .usMean c _ _ _ | .st1 c _ _ _ _ | .st5 c _ _ _ | .st15 c _ _ | .stMean c _ => c = .tick ∨ ∃ n, c = .mark n
  | _ => True

theorem MPc.sane_step (k : MConst F) (t i s) (l : MPc F) (s' l' es) (h : l.sane) (hst : (meterMachine k).step t i s l = some (s', l', es)) : l'.sane := by
  cases l with
  | tickA a p =>
    obtain ⟨e, p', _, _, rfl, _⟩ := meter_tick_step hst
    unfold afterTick
    split
    · trivial
    · exact .inl rfl
    · trivial
  | idle =>
    simp only [meterMachine, Option.some.injEq, Prod.mk.injEq] at hst
    obtain ⟨rfl, rfl, rfl⟩ := hst
    cases i.call <;> trivial
  | mark0 n =>
    simp only [meterMachine] at hst
    split at hst <;> cases hst <;> trivial
  | markA n a =>
    simp only [meterMachine, Option.some.injEq, Prod.mk.injEq] at hst
    obtain ⟨rfl, rfl, rfl⟩ := hst
    cases a
    · trivial
    · trivial
    · exact .inr ⟨n, rfl⟩
  | _ =>
    simp only [meterMachine, Option.some.injEq, Prod.mk.injEq] at hst
    obtain ⟨rfl, rfl, rfl⟩ := hst
    first | exact h | trivial

/-- Steps that a call of a meter takes at most. -/
def meterSteps : MCall → Nat
  | .mark _ => 14
  | .snapshot => 6
  | _ => 2

theorem meter_neverWaits (k : MConst F) (go : MIn) {o : MCall} (ho : o ≠ .tick) : NeverWaits (meterMachine k) callsOf .zero (fun _ => .idle) go o (meterSteps o) := by
  have htick : ∀ a (p : TPc F), ¬ (MPc.abs (.tickA a p)).isIn o := fun a p h => ho h.symm
  refine neverWaits (proj := MEv.call?) MPc.abs MPc.left (fun h => meter_wf h) MPc.sane (fun _ => trivial) (MPc.sane_step k) ?_ ?_ ?_ ?_
  · intro t s l h _
    cases l <;> first | exact h.elim | exact (htick _ _ h).elim | rfl | skip
    simp only [meterMachine]
    split <;> rfl
  · intro l h
    cases l <;> first | exact h.elim | exact (htick _ _ h).elim | exact Nat.succ_pos _ | skip
    rename_i a
    cases a <;> simp [MPc.left, Avg.idx]
  · intro l h hq
    cases l <;> first | exact h.elim | exact (htick _ _ h).elim | skip
    all_goals first
      | (cases h; simp [MPc.left, meterSteps]; done)
      | (cases h
         rcases hq with hq | ⟨n, hq⟩
         · exact absurd hq ho
         · subst hq; simp [MPc.left, meterSteps]; done)
      | skip
    · cases h; cases ‹Avg› <;> simp [MPc.left, meterSteps, Avg.idx]
    · cases h; cases ‹MCall› <;> simp [MPc.left, meterSteps]
  · intro t i s l s' l' es h hq hst
    cases l <;> first | exact h.elim | exact (htick _ _ h).elim | skip
    case mark0 n =>
      simp only [meterMachine] at hst
      split at hst <;> cases hst <;> exact .inl ⟨h, by simp [MPc.left]⟩
    case markA n a =>
      simp only [meterMachine, Option.some.injEq, Prod.mk.injEq] at hst
      obtain ⟨rfl, rfl, rfl⟩ := hst
      cases a <;> exact .inl ⟨h, by simp [MPc.left, Avg.next, Avg.idx]⟩
    case ret c r =>
      simp only [meterMachine, Option.some.injEq, Prod.mk.injEq] at hst
      obtain ⟨rfl, rfl, rfl⟩ := hst
      cases h
      exact .inr ⟨r, by simp [MEv.call?]⟩
    all_goals
      simp only [meterMachine, Option.some.injEq, Prod.mk.injEq] at hst
      obtain ⟨rfl, rfl, rfl⟩ := hst
      exact .inl ⟨h, by simp [MPc.left, Avg.idx]⟩

end GoMetrics
