import Verif.Model.Memory
import Mathlib.Tactic.Common
import Mathlib.Tactic.Linarith
/-
Lock discipline of the library and what follows from it about happens-before.
-/
namespace GoMetrics.Mem

/-! ### Protection of locations -/

/-- How accesses to a location after its initialisation are kept apart.  `pointer`: not at
all, and the value is a pointer to an object of the library. -/
inductive Prot where
  | const | atomic | guarded | unprotected | pointer
  deriving DecidableEq

/-- The protection of each field. -/
def prot : Kind → Fld → Prot
  | .counter, .count => .atomic
  | .gauge, .value => .atomic
  | .gaugeFloat64, .value => .atomic
  | .ewma, .uncounted => .atomic
  | .ewma, .rate => .atomic
  | .ewma, .init => .atomic
  | .meter, .stopped => .atomic
  | .meterState, .count => .atomic
  | .meterState, .rate1 => .atomic
  | .meterState, .rate5 => .atomic
  | .meterState, .rate15 => .atomic
  | .meterState, .rateMean => .atomic
  | .arbiter, _ => .guarded
  | .uniformSample, .count => .guarded
  | .uniformSample, .values => .guarded
  | .expDecaySample, .count => .guarded
  | .expDecaySample, .t0 => .guarded
  | .expDecaySample, .t1 => .guarded
  | .expDecaySample, .heap => .guarded
  | .registry, .metrics => .guarded
  | .healthcheck, .err => .unprotected
  | .slice, .contents => .unprotected
  | .globals, .useNilMetrics => .unprotected
  | .globals, .shortHostName => .unprotected
  | .globals, .memStats => .unprotected
  | .globals, .frees => .unprotected
  | .globals, .lookups => .unprotected
  | .globals, .mallocs => .unprotected
  | .globals, .numGC => .unprotected
  | .globals, .numCgoCalls => .unprotected
  | .globals, .gcStats => .unprotected
  | .globals, .runtimeMetric _ => .pointer
  | .globals, .debugMetric _ => .pointer
  | .once, .done => .atomic
  | _, _ => .const

/-- Protection of a location. -/
def Loc.prot (x : Loc) : Prot := Mem.prot x.obj.kind x.fld

/-- Locks held: mutexes with the way they are held. -/
abbrev Held := List (Obj × Bool)

/-- An access is allowed while the locks in `held` are held. -/
def Allowed (held : Held) : Act → Prop
  | .read x v => match x.prot with
    | .const => True
    | .guarded => ∃ w, (x.obj, w) ∈ held
    | .atomic => False
    | .unprotected => v = none
    | .pointer => True
  | .write x v => match x.prot with
    | .guarded => (x.obj, true) ∈ held
    | .unprotected => v = none
    | .pointer => True
    | _ => False
  | .atomic x => x.prot = .atomic
  | .new _ _ => False
  | .acq _ _ => False
  | .rel _ _ => False
  | _ => True

/-- Every access in the code is allowed. -/
def Safe (held : Held) : Code → Prop
  | .skip => True
  | .act a => Allowed held a
  | .seq c d => Safe held c ∧ Safe held d
  | .alt c d => Safe held c ∧ Safe held d
  | .star c => Safe held c
  | .locked m w c => Safe ((m, w) :: held) c
  | .load x k => (Allowed held (.read x none) ∧ x.prot ≠ .unprotected) ∧ ∀ o, Safe held (k o)
  | .alloc kind _ k => ∀ o, o.kind = kind → Safe held (k o)
  | .any kind k => ∀ o, o.kind = kind → Safe held (k o)
  | .go => True
  | .call _ => True
  | .user => True

theorem Allowed.mono {held held' : Held} (h : held ⊆ held') : ∀ {a : Act}, Allowed held a → Allowed held' a := by
  intro a ha
  cases a with
  | read x v =>
    simp only [Allowed] at ha ⊢
    cases hp : x.prot <;> simp only [hp] at ha ⊢
    · exact ha.imp fun w hw => h hw
    · exact ha
  | write x v =>
    simp only [Allowed] at ha ⊢
    cases hp : x.prot <;> simp only [hp] at ha ⊢
    · exact h ha
    · exact ha
  | _ => exact ha

theorem Safe.mono {c : Code} : ∀ {held held' : Held}, held ⊆ held' → Safe held c → Safe held' c := by
  induction c with
  | skip => intros; trivial
  | act a => intro _ _ h hs; exact Allowed.mono h hs
  | seq c d hc hd => intro _ _ h hs; exact ⟨hc h hs.1, hd h hs.2⟩
  | alt c d hc hd => intro _ _ h hs; exact ⟨hc h hs.1, hd h hs.2⟩
  | star c hc => intro _ _ h hs; exact hc (held := _) h hs
  | locked m w c hc => intro _ _ h hs; exact hc (List.cons_subset_cons _ h) hs
  | load x k hk => intro _ _ h hs; exact ⟨⟨Allowed.mono h hs.1.1, hs.1.2⟩, fun o => hk o h (hs.2 o)⟩
  | alloc kind rf k hk => intro _ _ h hs o ho; exact hk o h (hs o ho)
  | any kind k hk => intro _ _ h hs o ho; exact hk o h (hs o ho)
  | go => intros; trivial
  | call c => intros; trivial
  | user => intros; trivial

/-! ### Locks held along a sequence of actions -/

/-- Acquisitions minus releases. -/
def bal (p : List Act) (m : Obj) (w : Bool) : Int :=
  (p.count (.acq m w) : Int) - p.count (.rel m w)

@[simp] theorem bal_nil (m w) : bal [] m w = 0 := by simp [bal]

theorem bal_append (p q : List Act) (m w) : bal (p ++ q) m w = bal p m w + bal q m w := by
  simp only [bal, List.count_append]; omega

theorem bal_cons (a : Act) (q : List Act) (m w) : bal (a :: q) m w = bal [a] m w + bal q m w :=
  bal_append [a] q m w

/-- The access is allowed given the locks held at the start and the actions since. -/
def Good (held : Held) (p : List Act) : Act → Prop
  | .read x v => match x.prot with
    | .const => True
    | .guarded => ∃ w, (x.obj, w) ∈ held ∨ 0 < bal p x.obj w
    | .atomic => False
    | .unprotected => v = none
    | .pointer => True
  | .write x v => match x.prot with
    | .guarded => (x.obj, true) ∈ held ∨ 0 < bal p x.obj true
    | .unprotected => v = none
    | .pointer => True
    | _ => False
  | .atomic x => x.prot = .atomic
  | _ => True

/-- A sequence of actions that releases what it acquires and only makes allowed accesses. -/
structure Disc (held : Held) (p : List Act) : Prop where
  balanced : ∀ m w, bal p m w = 0
  nonneg : ∀ p₁ p₂, p = p₁ ++ p₂ → ∀ m w, 0 ≤ bal p₁ m w
  good : ∀ p₁ a p₂, p = p₁ ++ a :: p₂ → Good held p₁ a

theorem Good.of_allowed {held : Held} {a : Act} (h : Allowed held a) : Good held [] a := by
  cases a with
  | read x v =>
    simp only [Allowed, Good] at h ⊢
    cases hp : x.prot <;> simp only [hp] at h ⊢
    · exact h.imp fun w hw => .inl hw
    · exact h
  | write x v =>
    simp only [Allowed, Good] at h ⊢
    cases hp : x.prot <;> simp only [hp] at h ⊢
    · exact .inl h
    · exact h
  | atomic x => exact h
  | _ => trivial

theorem Good.shift {held held' : Held} {p q : List Act} {a : Act}
    (hm : ∀ m w, ((m, w) ∈ held ∨ 0 < bal p m w) → ((m, w) ∈ held' ∨ 0 < bal q m w))
    (h : Good held p a) : Good held' q a := by
  cases a with
  | read x v =>
    simp only [Good] at h ⊢
    cases hp : x.prot <;> simp only [hp] at h ⊢
    · exact h.imp fun w hw => hm _ _ hw
    · exact h
  | write x v =>
    simp only [Good] at h ⊢
    cases hp : x.prot <;> simp only [hp] at h ⊢
    · exact hm _ _ h
    · exact h
  | atomic x => exact h
  | _ => trivial

theorem Disc.nil (held : Held) : Disc held [] where
  balanced := by simp
  nonneg p₁ p₂ h := by
    rcases List.append_eq_nil_iff.1 h.symm with ⟨rfl, _⟩; simp
  good p₁ a p₂ h := by simp at h

theorem Disc.single {held : Held} {a : Act} (hb : ∀ m w, bal [a] m w = 0) (hg : Good held [] a) :
    Disc held [a] where
  balanced := hb
  nonneg p₁ p₂ h m w := by
    rcases p₁ with _ | ⟨b, p₁⟩
    · simp
    · simp only [List.cons_append, List.cons.injEq] at h
      rcases List.append_eq_nil_iff.1 h.2.symm with ⟨rfl, _⟩
      rw [← h.1, hb]
  good p₁ b p₂ h := by
    rcases p₁ with _ | ⟨c, p₁⟩
    · simp only [List.nil_append, List.cons.injEq] at h
      rw [← h.1]; exact hg
    · simp at h

theorem Disc.append {held : Held} {p q : List Act} (hp : Disc held p) (hq : Disc held q) :
    Disc held (p ++ q) where
  balanced m w := by rw [bal_append, hp.balanced, hq.balanced]; rfl
  nonneg p₁ p₂ h m w := by
    rcases List.append_eq_append_iff.1 h with ⟨s, h₁, h₂⟩ | ⟨s, h₁, h₂⟩
    · rw [h₁, bal_append, hp.balanced]
      have := hq.nonneg s p₂ h₂ m w
      omega
    · exact hp.nonneg p₁ s h₁ m w
  good p₁ a p₂ h := by
    rcases List.append_eq_append_iff.1 h with ⟨s, h₁, h₂⟩ | ⟨s, h₁, h₂⟩
    · rw [h₁]
      refine (hq.good s a p₂ h₂).shift fun m w hm => hm.imp id fun hm => ?_
      rw [bal_append, hp.balanced]; omega
    · rcases s with _ | ⟨b, s⟩
      · simp only [List.nil_append] at h₂
        rw [List.append_nil] at h₁
        subst h₁
        refine (hq.good [] a p₂ (by simpa using h₂.symm)).shift fun m w hm => hm.imp id fun hm => ?_
        simp at hm
      · simp only [List.cons_append, List.cons.injEq] at h₂
        rw [← h₂.1] at h₁
        exact hp.good p₁ a s h₁

theorem bal_single_acq (m w m' w') : bal [.acq m w] m' w' = if m' = m ∧ w' = w then 1 else 0 := by
  by_cases h : m' = m ∧ w' = w
  · rcases h with ⟨rfl, rfl⟩; simp [bal]
  · have : (Act.acq m w == Act.acq m' w') = false := by
      simp only [beq_eq_false_iff_ne, ne_eq, Act.acq.injEq, not_and]
      exact fun h1 h2 => h ⟨h1.symm, h2.symm⟩
    simp [bal, List.count_cons, this, h]

theorem bal_single_rel (m w m' w') : bal [.rel m w] m' w' = if m' = m ∧ w' = w then -1 else 0 := by
  by_cases h : m' = m ∧ w' = w
  · rcases h with ⟨rfl, rfl⟩; simp [bal]
  · have : (Act.rel m w == Act.rel m' w') = false := by
      simp only [beq_eq_false_iff_ne, ne_eq, Act.rel.injEq, not_and]
      exact fun h1 h2 => h ⟨h1.symm, h2.symm⟩
    simp [bal, List.count_cons, this, h]

theorem Disc.locked {held : Held} {m : Obj} {w : Bool} {p : List Act} (hp : Disc ((m, w) :: held) p) :
    Disc held (.acq m w :: (p ++ [.rel m w])) where
  balanced m' w' := by
    rw [bal_cons, bal_append, hp.balanced, bal_single_acq, bal_single_rel]
    split <;> omega
  nonneg p₁ p₂ h m' w' := by
    rcases p₁ with _ | ⟨a, p₁⟩
    · simp
    · simp only [List.cons_append, List.cons.injEq] at h
      rw [← h.1, bal_cons, bal_single_acq]
      rcases List.append_eq_append_iff.1 h.2 with ⟨s, h₁, h₂⟩ | ⟨s, h₁, h₂⟩
      · rw [h₁, bal_append, hp.balanced]
        rcases s with _ | ⟨b, s⟩
        · simp only [bal_nil]; split <;> omega
        · simp only [List.cons_append, List.cons.injEq] at h₂
          rcases List.append_eq_nil_iff.1 h₂.2.symm with ⟨rfl, _⟩
          rw [← h₂.1, bal_single_rel]; split <;> omega
      · have := hp.nonneg p₁ s h₁ m' w'
        split <;> omega
  good p₁ a p₂ h := by
    rcases p₁ with _ | ⟨b, p₁⟩
    · simp only [List.nil_append, List.cons.injEq] at h
      rw [← h.1]; trivial
    · simp only [List.cons_append, List.cons.injEq] at h
      rw [← h.1]
      rcases List.append_eq_append_iff.1 h.2 with ⟨s, h₁, h₂⟩ | ⟨s, h₁, h₂⟩
      · rcases s with _ | ⟨c, s⟩
        · simp only [List.nil_append, List.cons.injEq] at h₂
          rw [← h₂.1]; trivial
        · simp at h₂
      · rcases s with _ | ⟨c, s⟩
        · simp only [List.nil_append, List.cons.injEq] at h₂
          rw [h₂.1]; trivial
        · simp only [List.cons_append, List.cons.injEq] at h₂
          rw [← h₂.1] at h₁
          refine (hp.good p₁ a s h₁).shift fun m' w' hm => ?_
          have hn := hp.nonneg p₁ (a :: s) h₁ m' w'
          rw [bal_cons, bal_single_acq]
          rcases hm with hm | hm
          · rcases List.mem_cons.1 hm with hm | hm
            · simp only [Prod.mk.injEq] at hm
              right; rw [if_pos hm]; omega
            · exact .inl hm
          · right; split <;> omega

/-! ### Every function of the library is safe -/

theorem safe_block {held : Held} : ∀ {cs : List Code}, (∀ c ∈ cs, Safe held c) → Safe held (block cs)
  | [], _ => trivial
  | [c], h => h c (by simp)
  | c :: d :: cs, h => ⟨h c (by simp), safe_block fun e he => h e (by simp [he])⟩

theorem bal_other {a : Act} (h1 : ∀ m w, a ≠ .acq m w) (h2 : ∀ m w, a ≠ .rel m w) (m w) :
    bal [a] m w = 0 := by
  have e1 : (a == Act.acq m w) = false := by simpa using h1 m w
  have e2 : (a == Act.rel m w) = false := by simpa using h2 m w
  simp [bal, List.count_cons, e1, e2]

/-- Discipline of all code, given that the functions of the library are safe. -/
theorem Disc.of_lang (hb : ∀ c, Safe [] (body c)) {c : Code} {p : List Act} {r : Done} (h : Lang c p r) :
    ∀ held, Safe held c → Disc held p := by
  induction h with
  | panic c => intro held _; exact .nil _
  | skip => intro held _; exact .nil _
  | act a =>
    intro held hs
    refine .single (bal_other ?_ ?_) (Good.of_allowed hs)
    · rintro m w rfl; exact hs
    · rintro m w rfl; exact hs
  | seq _ _ h1 h2 => intro held hs; exact (h1 held hs.1).append (h2 held hs.2)
  | seqPanic _ h1 => intro held hs; exact h1 held hs.1
  | altL _ h1 => intro held hs; exact h1 held hs.1
  | altR _ h1 => intro held hs; exact h1 held hs.2
  | starNil => intro held _; exact .nil _
  | starCons _ _ h1 h2 => intro held hs; exact (h1 held hs).append (h2 held hs)
  | starPanic _ h1 => intro held hs; exact h1 held hs
  | locked _ h1 => intro held hs; exact (h1 _ hs).locked
  | @load x k o p r _ h1 =>
    intro held hs
    have h0 : Disc held [Act.read x (some o)] := by
      refine .single (bal_other (by simp) (by simp)) (Good.of_allowed ?_)
      have := hs.1
      simp only [Allowed] at this ⊢
      cases hp : x.prot <;> simp only [hp] at this ⊢
      · exact this.1
      · exact this.1
      · exact absurd rfl this.2
    exact h0.append (h1 held (hs.2 o))
  | loadNil => intro held hs; exact .single (bal_other (by simp) (by simp)) (Good.of_allowed hs.1.1)
  | alloc ho _ h1 =>
    intro held hs
    exact (Disc.single (a := .new _ _) (bal_other (by simp) (by simp)) trivial).append (h1 held (hs _ ho))
  | any ho _ h1 => intro held hs; exact h1 held (hs _ ho)
  | go u => intro held _; exact .single (bal_other (by simp) (by simp)) trivial
  | call _ h1 => intro held _; exact h1 held (Safe.mono (List.nil_subset _) (hb _))
  | userNil => intro held _; exact .nil _
  | @userAct a q r ha _ h1 =>
    intro held _
    refine (Disc.single (a := a) ?_ ?_).append (h1 held trivial)
    · refine bal_other ?_ ?_ <;> rintro m w rfl <;> exact ha
    · cases a with
      | read x v =>
        obtain ⟨rfl, hk⟩ := ha
        simp [Good, Loc.prot, hk.1, hk.2, prot]
      | write x v =>
        obtain ⟨rfl, hk⟩ := ha
        rcases hk with hk | rfl
        · simp [Good, Loc.prot, hk.1, hk.2, prot]
        · simp [Good, Loc.prot, globals, prot]
      | atomic x => exact ha.elim
      | _ => trivial
  | userCall _ _ h1 h2 => intro held _; exact (h1 held trivial).append (h2 held trivial)
  | userPanic _ h1 => intro held _; exact h1 held trivial

theorem safe_counter (f c) : Safe [] (counterCode f c) := by
  rcases c with ⟨k, n⟩
  cases k <;> cases f <;> simp [counterCode, Safe, at', Allowed, Loc.prot, prot]

theorem safe_gauge (f c) : Safe [] (gaugeCode f c) := by
  rcases c with ⟨k, n⟩
  cases k <;> cases f <;> simp [gaugeCode, Safe, at', rd, Allowed, Loc.prot, prot]

theorem safe_health (f c) : Safe [] (healthCode f c) := by
  rcases c with ⟨k, n⟩
  cases k <;> cases f <;> simp [healthCode, Safe, rd, wr, Allowed, Loc.prot, prot]

theorem safe_ewma (f c) : Safe [] (ewmaCode f c) := by
  rcases c with ⟨k, n⟩
  cases k <;> cases f <;>
    simp [ewmaCode, fetchInstantRateCode, updateRateCode, block, Safe, at', rd, Allowed, Loc.prot, prot]

theorem safe_typed {held : Held} {kind k o} (h : o.kind = kind → Safe held (k o)) :
    Safe held (typed kind k o) := by
  unfold typed; split
  · exact h ‹_›
  · trivial

theorem safe_state {m : Obj} (hm : m.kind = .meter) (f) (hf : prot .meterState f = .atomic := by rfl) :
    Safe [] (state m f) := by
  refine ⟨?_, fun o => safe_typed fun ho => ?_⟩
  · simp [Allowed, Loc.prot, hm, prot]
  · simp [Safe, at', Allowed, Loc.prot, ho, hf]

theorem safe_part {m : Obj} {f : Fld} {k : Obj → Code} (hp : prot m.kind f = .const)
    (hk : ∀ o, Safe [] (k o)) : Safe [] (.load ⟨m, f⟩ k) := by
  refine ⟨?_, hk⟩
  simp [Allowed, Loc.prot, hp]

theorem safe_updateSnapshot {m : Obj} (hm : m.kind = .meter) : Safe [] (updateSnapshotCode m) := by
  refine safe_block ?_
  simp only [List.mem_cons, List.not_mem_nil, or_false, forall_eq_or_imp, forall_eq]
  refine ⟨safe_part (by simp [hm, prot]) fun o => safe_ewma _ o, safe_part (by simp [hm, prot]) fun o => safe_ewma _ o,
    safe_part (by simp [hm, prot]) fun o => safe_ewma _ o, safe_state hm _, ?_, safe_state hm _, safe_state hm _,
    safe_state hm _, safe_state hm _⟩
  simp [Safe, rd, Allowed, Loc.prot, hm, prot]

theorem safe_meterTick {m : Obj} (hm : m.kind = .meter) : Safe [] (meterTickCode m) := by
  refine safe_block ?_
  simp only [List.mem_cons, List.not_mem_nil, or_false, forall_eq_or_imp, forall_eq]
  exact ⟨safe_part (by simp [hm, prot]) fun o => safe_ewma _ o, safe_part (by simp [hm, prot]) fun o => safe_ewma _ o,
    safe_part (by simp [hm, prot]) fun o => safe_ewma _ o, safe_updateSnapshot hm⟩

theorem safe_meter (f m) : Safe [] (meterCode f m) := by
  rcases hm : m.kind <;> simp only [meterCode, hm] <;> try trivial
  · cases f <;> try exact safe_state hm _
    · refine ⟨by simp [Safe, at', Allowed, Loc.prot, hm, prot], trivial, safe_block ?_⟩
      simp only [List.mem_cons, List.not_mem_nil, or_false, forall_eq_or_imp, forall_eq]
      exact ⟨safe_state hm _, safe_part (by simp [hm, prot]) fun o => safe_ewma _ o,
        safe_part (by simp [hm, prot]) fun o => safe_ewma _ o,
        safe_part (by simp [hm, prot]) fun o => safe_ewma _ o, safe_updateSnapshot hm⟩
    · refine safe_block ?_
      simp only [List.mem_cons, List.not_mem_nil, or_false, forall_eq_or_imp, forall_eq]
      exact ⟨safe_state hm _, safe_state hm _, safe_state hm _, safe_state hm _, safe_state hm _,
        fun _ _ => trivial⟩
    · simp [Safe, at', wr, Allowed, Loc.prot, hm, prot, arbiter]
  · cases f <;> simp [Safe, rd, Allowed, Loc.prot, hm, prot]

theorem safe_newEWMA {k : Option Obj → Code} (h : ∀ a, Safe [] (k a)) : Safe [] (newEWMACode k) := by
  refine ⟨?_, h none, fun o _ => h (some o)⟩
  simp [Safe, rd, Allowed, Loc.prot, globals, prot]

theorem safe_unlessNil {c : Code} (h : Safe [] c) : Safe [] (unlessNil c) := by
  refine ⟨?_, trivial, h⟩
  simp [Safe, rd, Allowed, Loc.prot, globals, prot]

theorem safe_newMeter : Safe [] newMeterCode := by
  refine safe_unlessNil fun s _ => safe_newEWMA fun a1 => safe_newEWMA fun a5 => safe_newEWMA fun a15 => fun m _ => ?_
  simp [Safe, block, put, rd, wr, Allowed, Loc.prot, arbiter, prot]

theorem safe_tickMeters : Safe [] tickMetersCode := by
  refine ⟨?_, fun o => safe_typed fun ho => Safe.mono (List.nil_subset _) (safe_meterTick ho)⟩
  simp [Allowed, Loc.prot, arbiter, prot]

theorem safe_stat {sl : Obj} (h : sl.kind = .slice) : Safe [] (statCode sl) := by
  simp [statCode, Safe, rd, Allowed, Loc.prot, h, prot]

theorem safe_percentiles {sl : Obj} (h : sl.kind = .slice) : Safe [] (percentilesCode sl) := by
  simp [percentilesCode, block, Safe, rd, wr, Allowed, Loc.prot, h, prot]

theorem safe_makeSlice {held : Held} {k : Obj → Code} (h : ∀ o, o.kind = .slice → Safe held (k o)) :
    Safe held (makeSlice k) := by
  refine fun o ho => ⟨?_, h o ho⟩
  simp [Safe, wr, Allowed, Loc.prot, ho, prot]

theorem safe_sample (f s) : Safe [] (sampleCode f s) := by
  rcases hs : s.kind <;> simp only [sampleCode, hs] <;> try trivial
  · cases f <;>
      simp +contextual [uniformCode, makeSlice, block, Safe, rd, wr, Allowed, Loc.prot, hs, prot]
  · cases f <;>
      simp +contextual [expDecayCode, expDecayValuesCode, statCode, percentilesCode, makeSlice, block, Safe, rd, wr,
        Allowed, Loc.prot, hs, prot]
  · cases f <;> simp only [sampleSnapshotCode] <;> try trivial
    all_goals try
      first
      | exact safe_part (by simp [hs, prot]) fun o => safe_typed safe_stat
      | exact safe_part (by simp [hs, prot]) fun o => safe_typed safe_percentiles
      | simp [Safe, rd, Allowed, Loc.prot, hs, prot]
        done
    refine safe_part (by simp [hs, prot]) fun o => safe_typed fun ho => safe_makeSlice fun _ _ => ?_
    simp [Safe, rd, Allowed, Loc.prot, ho, prot]

theorem safe_sampleOf {h : Obj} (hh : h.kind = .histogram ∨ h.kind = .histogramSnapshot) (f) : Safe [] (sampleOf h f) :=
  safe_part (by rcases hh with h | h <;> simp [h, prot]) fun o => safe_sample _ o

theorem safe_hist (f h) : Safe [] (histCode f h) := by
  rcases hh : h.kind <;> simp only [histCode, hh] <;> try trivial
  · cases f <;> first
      | exact safe_sampleOf (.inl hh) _
      | exact safe_part (by simp [hh, prot]) fun o => trivial
      | exact ⟨safe_sampleOf (.inl hh) _, fun _ _ _ _ => trivial⟩
  · cases f <;> first
      | exact safe_sampleOf (.inr hh) _
      | exact safe_part (by simp [hh, prot]) fun o => trivial
      | trivial

theorem safe_histOf {t : Obj} (ht : t.kind = .timer ∨ t.kind = .timerSnapshot) (f) : Safe [] (histOf t f) :=
  safe_part (by rcases ht with h | h <;> simp [h, prot]) fun o => safe_hist _ o

theorem safe_meterOf {t : Obj} (ht : t.kind = .timer ∨ t.kind = .timerSnapshot) (f) : Safe [] (meterOf t f) :=
  safe_part (by rcases ht with h | h <;> simp [h, prot]) fun o => safe_meter _ o

theorem safe_timerUpdate {t : Obj} (ht : t.kind = .timer) : Safe [] (timerUpdateCode t) :=
  Safe.mono (List.nil_subset _) (c := .seq _ _) ⟨safe_histOf (.inl ht) _, safe_meterOf (.inl ht) _⟩

theorem safe_timer (f t) : Safe [] (timerCode f t) := by
  rcases ht : t.kind <;> simp only [timerCode, ht] <;> try trivial
  · cases f <;> first
      | exact safe_histOf (.inl ht) _
      | exact safe_meterOf (.inl ht) _
      | exact safe_timerUpdate ht
      | exact ⟨trivial, safe_timerUpdate ht⟩
      | exact Safe.mono (List.nil_subset _) (c := block [_, _, _])
          ⟨safe_histOf (.inl ht) _, safe_meterOf (.inl ht) _, fun _ _ _ _ _ _ => trivial⟩
  · cases f <;> first
      | exact safe_histOf (.inr ht) _
      | exact safe_meterOf (.inr ht) _
      | trivial

/-- A pointer read from the map of a registry whose lock is held. -/
theorem safe_lookup {held : Held} {r : Obj} {w : Bool} (hr : r.kind = .registry) (hh : (r, w) ∈ held) {k : Obj → Code}
    (hk : ∀ o, Safe held (k o)) : Safe held (.load ⟨r, .metrics⟩ k) := by
  refine ⟨⟨?_, ?_⟩, hk⟩
  · simp only [Allowed, Loc.prot, hr, prot]; exact ⟨w, hh⟩
  · simp [Loc.prot, hr, prot]

theorem safe_register {r : Obj} (hr : r.kind = .registry) (i) : Safe [(r, true)] (registerCode r i) := by
  simp [registerCode, Safe, rd, put, Allowed, Loc.prot, hr, prot]

theorem safe_registered {r : Obj} (hr : r.kind = .registry) : Safe [] (registeredCode r) :=
  safe_lookup (w := false) hr (by simp) fun _ => trivial

theorem safe_stop {r : Obj} (hr : r.kind = .registry) : Safe [(r, true)] (stopCode r) := by
  refine safe_lookup (w := true) hr (by simp) fun o => Safe.mono (List.nil_subset _) ?_
  split
  · exact safe_meter _ _
  · exact safe_meter _ _
  · exact safe_timer _ _
  · exact safe_timer _ _
  · trivial
  · trivial

theorem safe_anyMetric {held : Held} {k : Obj → Code} (h : ∀ o, Safe held (k o)) :
    Safe held (registryCode.anyMetric k) := by
  simp only [registryCode.anyMetric, Safe]
  exact ⟨fun o _ => h o, fun o _ => h o, fun o _ => h o, fun o _ => h o, fun o _ => h o, fun o _ => h o, fun o _ => h o,
    fun o _ => h o, fun o _ => h o, fun o _ => h o, fun o _ => h o, fun o _ => h o, fun o _ => h o⟩

theorem safe_getAllEntry (i) : Safe [] (getAllEntryCode i) := by
  unfold getAllEntryCode
  split <;> first
    | trivial
    | exact safe_counter _ _
    | exact safe_gauge _ _
    | exact ⟨safe_health _ _, safe_health _ _, trivial, safe_health _ _⟩
    | refine ⟨safe_hist _ _, fun o _ => safe_block ?_⟩
      simp only [List.mem_cons, List.not_mem_nil, or_false, forall_eq_or_imp, forall_eq]
      exact ⟨safe_hist _ _, safe_hist _ _, safe_hist _ _, safe_hist _ _, safe_hist _ _, safe_hist _ _⟩
    | refine ⟨safe_meter _ _, fun o _ => safe_block ?_⟩
      simp only [List.mem_cons, List.not_mem_nil, or_false, forall_eq_or_imp, forall_eq]
      exact ⟨safe_meter _ _, safe_meter _ _, safe_meter _ _, safe_meter _ _, safe_meter _ _⟩
    | refine ⟨safe_timer _ _, fun o _ => safe_block ?_⟩
      simp only [List.mem_cons, List.not_mem_nil, or_false, forall_eq_or_imp, forall_eq]
      exact ⟨safe_timer _ _, safe_timer _ _, safe_timer _ _, safe_timer _ _, safe_timer _ _, safe_timer _ _,
        safe_timer _ _, safe_timer _ _, safe_timer _ _, safe_timer _ _⟩

theorem safe_registry (f r) : Safe [] (registryCode f r) := by
  rcases hr : r.kind <;> simp only [registryCode, hr] <;> try trivial
  · have hg : Safe [] (.locked r false (.load ⟨r, .metrics⟩ fun _ => .skip)) :=
      safe_lookup (w := false) hr (by simp) fun _ => trivial
    have hw : Safe [(r, true)] (wr r .metrics) := by simp [Safe, wr, Allowed, Loc.prot, hr, prot]
    have hl : Safe [(r, true)] (.load ⟨r, .metrics⟩ fun _ => .skip) :=
      safe_lookup (w := true) hr (by simp) fun _ => trivial
    cases f
    · exact ⟨safe_registered hr, trivial⟩
    · exact hg
    · exact ⟨safe_registered hr, trivial, safe_anyMetric safe_getAllEntry⟩
    · exact ⟨hg, trivial, hl, trivial, safe_register hr _⟩
    · exact ⟨hg, trivial, hl, trivial, trivial, safe_register hr _, safe_anyMetric fun _ => safe_register hr _⟩
    · exact safe_register hr _
    · exact safe_lookup (w := false) hr (by simp) fun o => Safe.mono (List.nil_subset _) (safe_health _ o)
    · exact ⟨safe_stop hr, hw⟩
    · exact ⟨safe_stop hr, hw⟩
  · refine ⟨?_, safe_part (by simp [hr, prot]) fun _ => trivial⟩
    simp [Safe, rd, Allowed, Loc.prot, hr, prot]

theorem safe_onceDo {o : Obj} {c : Code} (ho : o.kind = .once) (h : Safe [(o, true)] c) : Safe [] (onceDo o c) := by
  have ha : ∀ held, Safe held (at' o .done) := fun held => by simp [Safe, at', Allowed, Loc.prot, ho, prot]
  exact ⟨ha _, trivial, ha _, trivial, h, ha _⟩

theorem safe_newVar {held : Held} {x : Loc} (hx : x.prot = .pointer) (k : Kind) : Safe held (newVar x k) := by
  have hw : ∀ held v, Safe held (.act (.write x v)) := fun held v => by simp [Safe, Allowed, hx]
  cases k <;> first
    | exact ⟨trivial, hw _ _, fun _ _ => hw _ _⟩
    | exact ⟨⟨trivial, trivial, fun _ _ => trivial⟩, hw _ _, fun _ _ => hw _ _⟩
    | exact trivial

theorem safe_loadVar {held : Held} {x : Loc} (hx : x.prot = .pointer) {k : Obj → Code} (hk : ∀ o, Safe held (k o)) :
    Safe held (.load x k) :=
  ⟨⟨by simp [Allowed, hx], by simp [hx]⟩, hk⟩

theorem safe_registerVar {held : Held} {x : Loc} (hx : x.prot = .pointer) (r : Obj) : Safe held (registerVar r x) :=
  ⟨safe_loadVar hx fun _ => trivial, by simp [Safe, Allowed, hx], trivial⟩

theorem safe_gaugeFrom {f : Fld} {x : Loc} (hf : prot .globals f = .unprotected) (hx : x.prot = .pointer) :
    Safe [] (gaugeFrom f x) :=
  ⟨by simp [Safe, rd, Allowed, Loc.prot, globals, hf], safe_loadVar hx fun _ => safe_gauge _ _⟩

theorem safe_registerMetrics {o r : Obj} (ho : o.kind = .once) {x : Nat → Loc} (hx : ∀ i, (x i).prot = .pointer)
    (kind : Nat → Kind) (n : Nat) : Safe [] (onceDo o (.seq (block ((List.range n).map fun i => newVar (x i) (kind i)))
      (block ((List.range n).map fun i => registerVar r (x i))))) := by
  refine safe_onceDo ho ⟨safe_block ?_, safe_block ?_⟩
  · intro c hc
    obtain ⟨i, _, rfl⟩ := List.mem_map.1 hc
    exact safe_newVar (hx i) _
  · intro c hc
    obtain ⟨i, _, rfl⟩ := List.mem_map.1 hc
    exact safe_registerVar (hx i) _

theorem safe_rdVar {f : Fld} (hf : prot .globals f = .unprotected) : Safe [] (rd globals f) := by
  simp [Safe, rd, Allowed, Loc.prot, globals, hf]

theorem safe_wrVar {f : Fld} (hf : prot .globals f = .unprotected) : Safe [] (wr globals f) := by
  simp [Safe, wr, Allowed, Loc.prot, globals, hf]

theorem safe_captureRuntime : Safe [] captureRuntimeMemStatsOnceCode := by
  refine safe_block ?_
  simp only [List.mem_cons, List.not_mem_nil, or_false]
  intro c hc
  have hv : ∀ i, (runtimeVar i).prot = .pointer := fun _ => rfl
  rcases hc with rfl | rfl | rfl | rfl | rfl | rfl | rfl | rfl | rfl | rfl | rfl | rfl | rfl | rfl | rfl | rfl | rfl |
      rfl | rfl | rfl | rfl | rfl | rfl | rfl | rfl | rfl | rfl | rfl | rfl | rfl | rfl | rfl | rfl | rfl | rfl | rfl |
      rfl | rfl | rfl | rfl | rfl | rfl | rfl | rfl <;> first
    | exact safe_rdVar rfl
    | exact safe_wrVar rfl
    | exact ⟨safe_rdVar rfl, safe_wrVar rfl⟩
    | exact safe_gaugeFrom rfl (hv _)
    | exact safe_loadVar (hv _) fun _ => safe_timer _ _
    | exact safe_loadVar (hv _) fun _ => safe_gauge _ _
    | exact show Safe [] (.seq _ _) from ⟨safe_rdVar rfl, safe_loadVar (hv _) fun _ => safe_hist _ _⟩

theorem safe_captureDebug : Safe [] captureDebugGCStatsOnceCode := by
  have hv : ∀ i, (debugVar i).prot = .pointer := fun _ => rfl
  refine safe_block ?_
  simp only [List.mem_cons, List.not_mem_nil, or_false, forall_eq_or_imp, forall_eq]
  exact ⟨safe_rdVar rfl, safe_wrVar rfl, safe_loadVar (hv _) fun _ => safe_timer _ _,
    safe_gaugeFrom rfl (hv _), safe_gaugeFrom rfl (hv _), safe_rdVar rfl,
    ⟨trivial, safe_rdVar rfl, safe_loadVar (hv _) fun _ => safe_hist _ _⟩, safe_gaugeFrom rfl (hv _)⟩

/-- All functions of the library respect the protection of the fields. -/
theorem safe_body (c : Call) : Safe [] (body c) := by
  cases c <;> simp only [body] <;> first
    | exact safe_unlessNil fun _ _ => trivial
    | exact safe_counter _ _
    | exact safe_gauge _ _
    | exact safe_health _ _
    | exact safe_ewma _ _
    | exact safe_meter _ _
    | exact safe_sample _ _
    | exact safe_hist _ _
    | exact safe_timer _ _
    | exact safe_registry _ _
    | exact safe_tickMeters
    | exact safe_newMeter
    | exact safe_registerMetrics rfl (fun _ => rfl) _ _
    | exact safe_captureRuntime
    | exact safe_captureDebug
    | exact safe_newEWMA fun _ => trivial
    | exact fun _ _ => trivial
    | exact fun _ _ _ _ => trivial
    | exact safe_unlessNil ⟨safe_unlessNil fun _ _ => trivial, fun _ _ => safe_unlessNil fun _ _ => trivial,
        safe_newMeter, fun _ _ _ _ _ _ => trivial⟩
    | simp [block, Safe, rd, wr, Allowed, Loc.prot, globals, prot]

end GoMetrics.Mem
