import Verif.Lemmas.RWMutex
import Verif.Lemmas.Machine
import Verif.Spec.RegistryConc
import Mathlib.Data.List.Induction

/-! Invariants of concurrent registry calls. -/

set_option linter.unusedSimpArgs false
set_option linter.unnecessarySeqFocus false
set_option linter.unusedSectionVars false

namespace GoMetrics
open Spec

variable {V : Type}

/-! ### Frames -/

def Frame.hold : Frame V → Hold
  | .reading _ | .runlock _ | .checking _ _ | .inCheck _ _ => .read
  | .pending _ => .pend
  | .locked _ | .inCtor _ | .clearing _ _ | .unlock _ _ => .write
  | _ => .no

def Frame.ok : Frame V → Prop
  | .runlock (.ret _ _) | .runlock (.visiting _ _) | .runlock (.lock _) => True
  | .runlock _ => False
  | _ => True

def Frame.abs : Frame V → TS (ROp V) (RRes V)
  | .idle => .idle
  | .rlock o | .reading o | .lock o | .pending o | .locked o => .pend o
  | .inCtor name => .pend (.getOrRegister name .fn)
  | .clearing _ _ => .pend .unregisterAll
  | .unlock o r | .ret o r => .done o r
  | .visiting l _ | .inVisit l _ => .done .each (.visit l)
  | .checking l _ | .inCheck l _ => .done .runHealthchecks (.visit l)
  | .runlock next => next.abs

/-- The call event of one event. -/
def REv.toCall : REv V → Option (CEv (ROp V) (RRes V))
  | .call e => some e
  | _ => none

theorem calls_eq (tr : List (REv V)) : calls tr = tr.filterMap REv.toCall := by
  unfold calls
  rfl

/-- The transitions, one by one. -/
inductive RStep (K : Kinds V) (t : Nat) (s : RegS V) : Frame V → RegS V → Frame V → List (REv V) → Prop where
  | call {o} : RStep K t s .idle s (startFrame o) [.call (.inv t o)]
  | rlock {o m} : s.rw.rlock t = some m → RStep K t s (.rlock o) { s with rw := m } (.reading o) []
  | get {name} : RStep K t s (.reading (.get name)) s (.runlock (.ret (.get name) (.value (find s.metrics name)))) [.call (.lin t (.get name) (.value (find s.metrics name)))]
  | hit {name a v} : find s.metrics name = some v → RStep K t s (.reading (.getOrRegister name a)) s
      (.runlock (.ret (.getOrRegister name a) (.value (some v)))) [.call (.lin t (.getOrRegister name a) (.value (some v)))]
  | miss {name a} : find s.metrics name = none → RStep K t s (.reading (.getOrRegister name a)) s (.runlock (.lock (.getOrRegister name a))) []
  | each {l : List (Str × V)} : l.Perm s.metrics → RStep K t s (.reading .each) s (.runlock (.visiting l l)) [.call (.lin t .each (.visit l))]
  | health {l : List (Str × V)} : l.Perm s.metrics → RStep K t s (.reading .runHealthchecks) s (.checking (l.filter (K.health ·.2)) (l.filter (K.health ·.2)))
      [.call (.lin t .runHealthchecks (.visit (l.filter (K.health ·.2))))]
  | runlock {next} : RStep K t s (.runlock next) { s with rw := s.rw.runlock t } next []
  | lock {o m} : s.rw.announce t = some m → RStep K t s (.lock o) { s with rw := m } (.pending o) []
  | pending {o m} : s.rw.acquire t = some m → RStep K t s (.pending o) { s with rw := m } (.locked o) []
  | hit2 {name a v} : find s.metrics name = some v → RStep K t s (.locked (.getOrRegister name a)) s
      (.unlock (.getOrRegister name a) (.value (some v))) [.call (.lin t (.getOrRegister name a) (.value (some v)))]
  | given {name v} : find s.metrics name = none → RStep K t s (.locked (.getOrRegister name (.val v))) (s.register K name v)
      (.unlock (.getOrRegister name (.val v)) (.value (some v))) [.call (.lin t (.getOrRegister name (.val v)) (.value (some v)))]
  | ctor {name} : find s.metrics name = none → RStep K t s (.locked (.getOrRegister name .fn)) s (.inCtor name) [.ctor t name]
  | made {name v} : RStep K t s (.inCtor name) (s.register K name v)
      (.unlock (.getOrRegister name .fn) (.value (some v))) [.call (.lin t (.getOrRegister name .fn) (.value (some v)))]
  | panicked {name} : RStep K t s (.inCtor name) s (.unlock (.getOrRegister name .fn) .panic) [.call (.lin t (.getOrRegister name .fn) .panic)]
  | register {name v} : RStep K t s (.locked (.register name v)) (s.register K name v) (.unlock (.register name v) (.dup (find s.metrics name).isSome))
      [.call (.lin t (.register name v) (.dup (find s.metrics name).isSome))]
  | unregister {name l} : l = ((find s.metrics name).toList.filter K.stoppable).map (fun v => (name, v)) →
      RStep K t s (.locked (.unregister name)) { s with metrics := s.metrics.filter (·.1 != name) } (.unlock (.unregister name) (.stopped l))
      [.call (.lin t (.unregister name) (.stopped l))]
  | clear {l : List (Str × V)} : l.Perm s.metrics → RStep K t s (.locked .unregisterAll) s (.clearing l []) []
  | clearing {name v rest stopped} : RStep K t s (.clearing ((name, v) :: rest) stopped) { s with metrics := s.metrics.filter (·.1 != name) }
      (.clearing rest (if K.stoppable v then (name, v) :: stopped else stopped)) []
  | cleared {stopped} : RStep K t s (.clearing [] stopped) s (.unlock .unregisterAll (.stopped stopped)) [.call (.lin t .unregisterAll (.stopped stopped))]
  | unlock {o r} : RStep K t s (.unlock o r) { s with rw := s.rw.unlock } (.ret o r) []
  | visit {l name v rest} : RStep K t s (.visiting l ((name, v) :: rest)) s (.inVisit l rest) [.visit t name v]
  | visited {l} : RStep K t s (.visiting l []) s (.ret .each (.visit l)) []
  | visitRet {l rest} : RStep K t s (.inVisit l rest) s (.visiting l rest) []
  | visitPanic {l rest} : RStep K t s (.inVisit l rest) s (.ret .each (.visit l)) []
  | check {l name v rest} : RStep K t s (.checking l ((name, v) :: rest)) s (.inCheck l rest) [.check t name v]
  | checked {l} : RStep K t s (.checking l []) s (.runlock (.ret .runHealthchecks (.visit l))) []
  | checkRet {l rest} : RStep K t s (.inCheck l rest) s (.checking l rest) []
  | checkPanic {l rest} : RStep K t s (.inCheck l rest) s (.runlock (.ret .runHealthchecks (.visit l))) []
  | ret {o r} : RStep K t s (.ret o r) s .idle [.call (.ret t o r)]

theorem regStep_rel {K : Kinds V} {t : Nat} {i : RIn V} {s s' : RegS V} {l l' : Frame V} {es : List (REv V)}
    (h : regStep K t i s l = some (s', l', es)) : RStep K t s l s' l' es := by
  unfold regStep at h
  split at h
  case h_10 =>
    split at h
    · simp only [Option.some.injEq, Prod.mk.injEq] at h
      obtain ⟨rfl, rfl, rfl⟩ := h
      exact .hit2 ‹_›
    · split at h <;> simp only [Option.some.injEq, Prod.mk.injEq] at h <;> obtain ⟨rfl, rfl, rfl⟩ := h
      · exact .given ‹_›
      · exact .ctor ‹_›
  case h_4 =>
    split at h <;> simp only [Option.some.injEq, Prod.mk.injEq] at h <;> obtain ⟨rfl, rfl, rfl⟩ := h
    · exact .hit ‹_›
    · exact .miss ‹_›
  all_goals try simp only [Option.some.injEq, Prod.mk.injEq, Option.map_eq_some_iff, reduceCtorEq] at h
  all_goals first
    | (obtain ⟨rfl, rfl, rfl⟩ := h)
    | (obtain ⟨m, hm, rfl, rfl, rfl⟩ := h)
  all_goals first
    | constructor; done
    | (constructor; first | assumption | exact rfl | (rename_i hf; exact hf _))

theorem regStep_local {K : Kinds V} {t : Nat} {s s' : RegS V} {l l' : Frame V} {es : List (REv V)} (hok : l.ok)
    (h : RStep K t s l s' l' es) :
    l'.ok ∧ LocalEv t l.abs (es.filterMap REv.toCall) l'.abs ∧ RWMutex.Trans t s.rw l.hold s'.rw l'.hold := by
  have hreg : ∀ name v, (s.register K name v).rw = s.rw := by
    intro name v
    unfold RegS.register
    split
    · rfl
    · split_ifs <;> rfl
  cases h
  case call o => cases o <;> exact ⟨trivial, .inv, .none⟩
  case runlock =>
    cases l' <;> first | exact hok.elim | exact ⟨trivial, .none, .runlock⟩
  case rlock => exact ⟨trivial, .none, .rlock ‹_›⟩
  case lock => exact ⟨trivial, .none, .announce ‹_›⟩
  case pending => exact ⟨trivial, .none, .acquire ‹_›⟩
  case given => exact ⟨trivial, .lin, by rw [hreg]; exact .none⟩
  case made => exact ⟨trivial, .lin, by rw [hreg]; exact .none⟩
  case register => exact ⟨trivial, .lin, by rw [hreg]; exact .none⟩
  case unlock => exact ⟨trivial, .none, .unlock⟩
  all_goals first
    | exact ⟨trivial, .none, .none⟩
    | exact ⟨trivial, .lin, .none⟩
    | exact ⟨trivial, .ret, .none⟩

/-! ### The map -/

theorem find_some_mem {m : List (Str × V)} {name : Str} {v : V} (h : find m name = some v) : (name, v) ∈ m := by
  unfold find at h
  simp only [Option.map_eq_some_iff] at h
  obtain ⟨e, he, rfl⟩ := h
  have h1 := List.find?_some he
  simp only [beq_iff_eq] at h1
  rw [← h1]
  exact List.mem_of_find?_eq_some he

theorem find_of_mem {m : List (Str × V)} (hn : (m.map Prod.fst).Nodup) {name : Str} {v : V} (h : (name, v) ∈ m) : find m name = some v := by
  induction m with
  | nil => simp at h
  | cons e m ih =>
    rw [List.map_cons, List.nodup_cons] at hn
    rcases List.mem_cons.1 h with rfl | h
    · simp [find]
    · have hne : e.1 ≠ name := by
        rintro rfl
        exact hn.1 (List.mem_map.2 ⟨_, h, rfl⟩)
      have := ih hn.2 h
      unfold find at this ⊢
      rw [List.find?_cons_of_neg (by simpa using hne)]
      exact this

theorem find_iff {m : List (Str × V)} (hn : (m.map Prod.fst).Nodup) {name : Str} {v : V} : (name, v) ∈ m ↔ find m name = some v :=
  ⟨find_of_mem hn, find_some_mem⟩

theorem find_none {m : List (Str × V)} {name : Str} (h : find m name = none) : name ∉ m.map Prod.fst := by
  unfold find at h
  simp only [Option.map_eq_none_iff, List.find?_eq_none, beq_iff_eq] at h
  intro hm
  obtain ⟨e, he, h1⟩ := List.mem_map.1 hm
  exact h e he h1

theorem find_cons (m : List (Str × V)) (name : Str) (v : V) : find ((name, v) :: m) = Function.update (find m) name (some v) := by
  funext n
  rcases eq_or_ne n name with rfl | hne
  · simp [find]
  · rw [Function.update_of_ne hne]
    unfold find
    rw [List.find?_cons_of_neg (by simpa using Ne.symm hne)]

theorem find_filter (m : List (Str × V)) (name : Str) : find (m.filter (·.1 != name)) = Function.update (find m) name none := by
  funext n
  rcases eq_or_ne n name with rfl | hne
  · rw [Function.update_self]
    unfold find
    rw [Option.map_eq_none_iff, List.find?_eq_none]
    intro e he
    simpa using (List.mem_filter.1 he).2
  · rw [Function.update_of_ne hne]
    induction m with
    | nil => rfl
    | cons e m ih =>
      by_cases h : e.1 = name
      · rw [List.filter_cons_of_neg (by simpa using h), ih]
        unfold find
        rw [List.find?_cons_of_neg (by simp [h, Ne.symm hne])]
      · rw [List.filter_cons_of_pos (by simpa using h)]
        unfold find at ih ⊢
        by_cases h2 : e.1 = n
        · simp [h2]
        · rw [List.find?_cons_of_neg (by simpa using h2), List.find?_cons_of_neg (by simpa using h2)]
          exact ih

theorem register_find (K : Kinds V) (s : RegS V) {name : Str} (h : find s.metrics name = none) (v : V) :
    find (s.register K name v).metrics = bound K (find s.metrics) name v := by
  unfold RegS.register bound
  rw [h]
  simp only
  split_ifs
  · exact find_cons ..
  · rfl

theorem register_keys (K : Kinds V) (s : RegS V) (name : Str) (v : V) (hn : (s.metrics.map Prod.fst).Nodup) :
    ((s.register K name v).metrics.map Prod.fst).Nodup := by
  unfold RegS.register
  split
  · exact hn
  · split_ifs
    · rw [List.map_cons, List.nodup_cons]
      exact ⟨find_none ‹_›, hn⟩
    · exact hn

theorem register_taken (K : Kinds V) (s : RegS V) {name : Str} {w : V} (h : find s.metrics name = some w) (v : V) : s.register K name v = s := by
  unfold RegS.register
  rw [h]

theorem lists_perm {m : List (Str × V)} (hn : (m.map Prod.fst).Nodup) {l : List (Str × V)} (hl : l.Perm m) (p : V → Bool) :
    lists (find m) p (l.filter (p ·.2)) := by
  refine ⟨(hl.nodup_iff.2 (List.Pairwise.of_map Prod.fst (fun _ _ h e => h (congrArg _ e)) hn)).filter _, fun name v => ?_⟩
  rw [List.mem_filter, hl.mem_iff, find_iff hn]

/-! ### The invariant -/

def Frame.isClearing : Frame V → Prop
  | .clearing _ _ => True
  | _ => False

structure RegInv (K : Kinds V) (m0 : List (Str × V)) (s : RegS V) (ls : Nat → Frame V) (tr : List (REv V)) : Prop where
  ok : ∀ u, (ls u).ok
  lock : s.rw.Inv fun u => (ls u).hold
  keys : (s.metrics.map Prod.fst).Nodup
  ctor : ∀ u name, ls u = .inCtor name → find s.metrics name = none
  run : ∃ m, LegalRun (RegCall K) (find m0) (linSeq (calls tr)) m ∧ ((∀ u, ¬ (ls u).isClearing) → m = find s.metrics) ∧
    ∀ u rest st, ls u = .clearing rest st → rest.Perm s.metrics ∧ st.Nodup ∧ (∀ n v, (n, v) ∈ rest → m n = some v) ∧
      ∀ n v, (n, v) ∈ st ↔ m n = some v ∧ K.stoppable v = true ∧ (n, v) ∉ rest

theorem RStep.metrics {K : Kinds V} {t : Nat} {s s' : RegS V} {l l' : Frame V} {es : List (REv V)} (h : RStep K t s l s' l' es) :
    s'.metrics = s.metrics ∨ l.hold = .write := by
  cases h <;> first | exact .inl rfl | exact .inr rfl

theorem RStep.keys {K : Kinds V} {t : Nat} {s s' : RegS V} {l l' : Frame V} {es : List (REv V)} (h : RStep K t s l s' l' es)
    (hn : (s.metrics.map Prod.fst).Nodup) : (s'.metrics.map Prod.fst).Nodup := by
  cases h <;> first
    | exact hn
    | exact register_keys _ _ _ _ hn
    | exact hn.sublist (List.filter_sublist.map _)

theorem linSeq_none {tr : List (REv V)} {es : List (REv V)} (h : linSeq (calls es) = []) : linSeq (calls (tr ++ es)) = linSeq (calls tr) := by
  rw [calls_eq, List.filterMap_append, linSeq_append, ← calls_eq, ← calls_eq, h, List.append_nil]

theorem linSeq_one {tr : List (REv V)} {t : Nat} {o : ROp V} {r : RRes V} : linSeq (calls (tr ++ [.call (.lin t o r)])) = linSeq (calls tr) ++ [(o, r)] := by
  rw [calls_eq, List.filterMap_append, linSeq_append, ← calls_eq]
  rfl

theorem legal_snoc {σ Op R : Type} {S : σ → Op → R → σ → Prop} {s s' s'' : σ} {l : List (Op × R)} {o : Op} {r : R} (h : LegalRun S s l s') (h' : S s' o r s'') :
    LegalRun S s (l ++ [(o, r)]) s'' := h.append (.cons h' .nil)

theorem RegInv.step {K : Kinds V} {m0 : List (Str × V)} {s s' : RegS V} {ls : Nat → Frame V} {tr es : List (REv V)} {t : Nat} {l' : Frame V}
    (hi : RegInv K m0 s ls tr) (h : RStep K t s (ls t) s' l' es) : RegInv K m0 s' (Function.update ls t l') (tr ++ es) := by
  obtain ⟨hok', -, htr⟩ := regStep_local (hi.ok t) h
  have hhold : (fun u => (Function.update ls t l' u).hold) = Function.update (fun u => (ls u).hold) t l'.hold := by
    funext u
    rcases eq_or_ne u t with rfl | hne
    · simp
    · simp [Function.update_of_ne hne]
  have hlock : s'.rw.Inv fun u => (Function.update ls t l' u).hold := by rw [hhold]; exact hi.lock.trans htr
  refine ⟨fun u => ?_, hlock, h.keys hi.keys, fun u name hu => ?_, ?_⟩
  · rcases eq_or_ne u t with rfl | hne
    · simpa using hok'
    · rw [Function.update_of_ne hne]; exact hi.ok u
  · rcases eq_or_ne u t with rfl | hne
    · rw [Function.update_self] at hu
      generalize hl : ls u = l at h
      cases h <;> try (simp at hu; done)
      case ctor hf => simp only [Frame.inCtor.injEq] at hu; subst hu; exact hf
      case runlock => have := hi.ok u; rw [hl, hu] at this; exact this.elim
      case call o => cases o <;> simp [startFrame] at hu
    · rw [Function.update_of_ne hne] at hu
      have hw : (ls u).hold = .write := by rw [hu]; rfl
      rcases h.metrics with e | e
      · rw [e]; exact hi.ctor u name hu
      · exact absurd (hi.lock.excl hw (.inl e)) (Ne.symm hne)
  · obtain ⟨m, hr, h1, h2⟩ := hi.run
    -- nobody else is clearing when `t` holds the lock
    have hno : (ls t).hold = .read ∨ (ls t).hold = .write → ¬ (ls t).isClearing → ∀ u, ¬ (ls u).isClearing := by
      intro hh hc u hu
      have hw : (ls u).hold = .write := by
        generalize ls u = l at hu
        cases l <;> first | exact hu.elim | rfl
      have : t = u := hi.lock.excl hw hh.symm
      subst this
      exact hc hu
    -- steps that change nothing but the lock and the frame of `t`
    have same : s'.metrics = s.metrics → linSeq (calls es) = [] → ¬ (ls t).isClearing → ¬ l'.isClearing →
        ∃ m, LegalRun (RegCall K) (find m0) (linSeq (calls (tr ++ es))) m ∧ ((∀ u, ¬ (Function.update ls t l' u).isClearing) → m = find s'.metrics) ∧
          ∀ u rest st, Function.update ls t l' u = .clearing rest st → rest.Perm s'.metrics ∧ st.Nodup ∧ (∀ n v, (n, v) ∈ rest → m n = some v) ∧
            ∀ n v, (n, v) ∈ st ↔ m n = some v ∧ K.stoppable v = true ∧ (n, v) ∉ rest := by
      intro e1 e2 hc hc'
      refine ⟨m, by rw [linSeq_none e2]; exact hr, fun hall => ?_, fun u rest st hu => ?_⟩
      · rw [e1]
        refine h1 fun u => ?_
        rcases eq_or_ne u t with rfl | hne
        · exact hc
        · have := hall u
          rwa [Function.update_of_ne hne] at this
      · rcases eq_or_ne u t with rfl | hne
        · rw [Function.update_self] at hu
          subst hu
          exact absurd trivial hc'
        · rw [Function.update_of_ne hne] at hu
          rw [e1]
          exact h2 u rest st hu
    -- steps with an effect
    have eff : ∀ o r, es = [.call (.lin t o r)] → ((ls t).hold = .read ∨ (ls t).hold = .write) → ¬ (ls t).isClearing → ¬ l'.isClearing →
        RegCall K (find s.metrics) o r (find s'.metrics) →
        ∃ m, LegalRun (RegCall K) (find m0) (linSeq (calls (tr ++ es))) m ∧ ((∀ u, ¬ (Function.update ls t l' u).isClearing) → m = find s'.metrics) ∧
          ∀ u rest st, Function.update ls t l' u = .clearing rest st → rest.Perm s'.metrics ∧ st.Nodup ∧ (∀ n v, (n, v) ∈ rest → m n = some v) ∧
            ∀ n v, (n, v) ∈ st ↔ m n = some v ∧ K.stoppable v = true ∧ (n, v) ∉ rest := by
      rintro o r rfl hh hc hc' hcall
      have hall := hno hh hc
      refine ⟨find s'.metrics, by rw [linSeq_one]; exact legal_snoc hr (h1 hall ▸ hcall), fun _ => rfl, fun u rest st hu => ?_⟩
      rcases eq_or_ne u t with rfl | hne
      · rw [Function.update_self] at hu
        subst hu
        exact absurd trivial hc'
      · rw [Function.update_of_ne hne] at hu
        have := hall u
        rw [hu] at this
        exact absurd trivial this
    generalize hl : ls t = l at h same eff hno
    cases h
    case call o => exact same rfl rfl id (by cases o <;> exact id)
    case runlock => exact same rfl rfl id (by
      intro hc
      have := hi.ok t
      rw [hl] at this
      cases l' <;> first | exact hc.elim | exact this.elim)
    case get => exact eff _ _ rfl (.inl rfl) id id .get
    case hit hf => exact eff _ _ rfl (.inl rfl) id id (.found hf)
    case each l hp =>
      have := lists_perm hi.keys hp fun _ => true
      simp only [List.filter_true] at this
      exact eff _ _ rfl (.inl rfl) id id (.each this)
    case health l hp => exact eff _ _ rfl (.inl rfl) id id (.runHealthchecks (lists_perm hi.keys hp K.health))
    case hit2 hf => exact eff _ _ rfl (.inr rfl) id id (.found hf)
    case given name v hf => exact eff _ _ rfl (.inr rfl) id id (by rw [register_find K s hf]; exact .given hf)
    case made name v =>
      have hf := hi.ctor t name hl
      exact eff _ _ rfl (.inr rfl) id id (by rw [register_find K s hf]; exact .made hf)
    case panicked name => exact eff _ _ rfl (.inr rfl) id id (.panicked (hi.ctor t name hl))
    case register name v =>
      refine eff _ _ rfl (.inr rfl) id id ?_
      rcases hf : find s.metrics name with _ | w
      · rw [register_find K s hf]; exact .registered hf
      · rw [register_taken K s hf]; exact .duplicate hf
    case unregister name l he =>
      refine eff _ _ rfl (.inr rfl) id id ?_
      simp only [find_filter]
      refine .unregister ?_
      subst he
      rcases hf : find s.metrics name with _ | w
      · exact ⟨by simp, by simp⟩
      · cases hw : K.stoppable w
        · refine ⟨by simp [hw], fun n v => ?_⟩
          simp only [Option.toList, List.filter_cons, hw, Bool.false_eq_true, if_false, List.filter_nil, List.map_nil, List.not_mem_nil, false_iff]
          split_ifs
          · rintro ⟨h1, h2⟩
            simp only [Option.some.injEq] at h1
            subst h1
            rw [hw] at h2
            simp at h2
          · simp
        · refine ⟨by simp [hw], fun n v => ?_⟩
          simp only [Option.toList, List.filter_cons, hw, if_true, List.filter_nil, List.map_cons, List.map_nil, List.mem_singleton, Prod.mk.injEq]
          split_ifs with hn
          · simp only [hn, true_and, Option.some.injEq]
            constructor
            · rintro rfl; exact ⟨rfl, hw⟩
            · rintro ⟨rfl, -⟩; rfl
          · simp [hn]
    case clear l hp =>
      have hall := hno (.inr rfl) id
      refine ⟨m, by rw [linSeq_none rfl]; exact hr, fun hc => absurd trivial (by have := hc t; rwa [Function.update_self] at this), fun u rest st hu => ?_⟩
      rcases eq_or_ne u t with rfl | hne
      · rw [Function.update_self] at hu
        simp only [Frame.clearing.injEq] at hu
        obtain ⟨rfl, rfl⟩ := hu
        rw [h1 hall]
        refine ⟨hp, List.nodup_nil, fun n v hm => (find_iff hi.keys).1 (hp.mem_iff.1 hm), fun n v => ?_⟩
        rw [hp.mem_iff, find_iff hi.keys]
        simp only [List.not_mem_nil, false_iff]
        rintro ⟨a, -, b⟩
        exact b a
      · rw [Function.update_of_ne hne] at hu
        have := hall u
        rw [hu] at this
        exact absurd trivial this
    case clearing name v rest st =>
      obtain ⟨a1, a2, a3, a4⟩ := h2 t _ _ hl
      refine ⟨m, by rw [linSeq_none rfl]; exact hr, fun hc => absurd trivial (by have := hc t; rwa [Function.update_self] at this), fun u rest' st' hu => ?_⟩
      rcases eq_or_ne u t with rfl | hne
      · rw [Function.update_self] at hu
        simp only [Frame.clearing.injEq] at hu
        obtain ⟨rfl, rfl⟩ := hu
        have hk : (((name, v) :: rest).map Prod.fst).Nodup := (a1.map Prod.fst).nodup_iff.2 hi.keys
        rw [List.map_cons, List.nodup_cons] at hk
        have hnot : (name, v) ∉ rest := fun hm => hk.1 (List.mem_map.2 ⟨_, hm, rfl⟩)
        refine ⟨?_, ?_, fun n w hm => a3 n w (by simp [hm]), fun n w => ?_⟩
        · have e : ((name, v) :: rest).filter (·.1 != name) = rest := by
            rw [List.filter_cons_of_neg (by simp), List.filter_eq_self]
            intro e he
            simp only [bne_iff_ne, ne_eq]
            rintro rfl
            exact hk.1 (List.mem_map.2 ⟨_, he, rfl⟩)
          rw [← e]
          exact a1.filter _
        · split_ifs
          · refine List.nodup_cons.2 ⟨fun hm => ?_, a2⟩
            exact ((a4 name v).1 hm).2.2 (by simp)
          · exact a2
        · have key : (n, w) ∈ st ↔ m n = some w ∧ K.stoppable w = true ∧ ¬ ((n, w) = (name, v) ∨ (n, w) ∈ rest) := by
            rw [a4, List.mem_cons]
          by_cases he : (n, w) = (name, v)
          · obtain ⟨rfl, rfl⟩ := Prod.mk.inj he
            have hm : m n = some w := a3 n w (by simp)
            have hst : (n, w) ∉ st := fun hc => ((a4 n w).1 hc).2.2 (by simp)
            split_ifs with hs
            · simp [hm, hs, hnot]
            · simp [hst, hs]
          · have e : ((n, w) ∈ if K.stoppable v then (name, v) :: st else st) ↔ (n, w) ∈ st := by
              split_ifs
              · simp [he]
              · rfl
            rw [e, key]
            simp [he]
      · rw [Function.update_of_ne hne] at hu
        have h3 : (ls u).hold = .write := by rw [hu]; rfl
        have h4 : (ls t).hold = .write := by rw [hl]; rfl
        exact absurd (hi.lock.excl h4 (.inl h3)) hne
    case cleared st =>
      obtain ⟨a1, a2, a3, a4⟩ := h2 t _ _ hl
      have hnil : s.metrics = [] := a1.nil_eq.symm
      refine ⟨fun _ => none, ?_, fun _ => by rw [hnil]; rfl, fun u rest st hu => ?_⟩
      · rw [linSeq_one]
        refine legal_snoc hr (.unregisterAll ⟨a2, fun n v => ?_⟩)
        rw [a4]
        simp
      · rcases eq_or_ne u t with rfl | hne
        · rw [Function.update_self] at hu
          cases hu
        · rw [Function.update_of_ne hne] at hu
          have h3 : (ls u).hold = .write := by rw [hu]; rfl
          have h4 : (ls t).hold = .write := by rw [hl]; rfl
          exact absurd (hi.lock.excl h4 (.inl h3)) hne
    all_goals exact same rfl rfl id id

theorem reg_inv {K : Kinds V} {m0 : List (Str × V)} (h0 : (m0.map Prod.fst).Nodup) {sched s ls tr}
    (h : (regMachine K).run (.init m0) (fun _ => .idle) sched = some (s, ls, tr)) : RegInv K m0 s ls tr := by
  refine (regMachine K).induct (RegInv K m0) ?_ ?_ sched s ls tr h
  · refine ⟨fun _ => trivial, RWMutex.Inv.free fun _ => rfl, h0, fun u name h => by simp at h, find m0, .nil, fun _ => rfl, fun u rest st h => by simp at h⟩
  · intro s ls tr t i s' l' es hi hst
    exact hi.step (regStep_rel hst)

theorem reg_wf {K : Kinds V} {m0 : List (Str × V)} {sched s ls tr}
    (h : (regMachine K).run (.init m0) (fun _ => .idle) sched = some (s, ls, tr)) : Wf allIdle (calls tr) (fun t => (ls t).abs) := by
  have := (regMachine K).wf REv.toCall Frame.abs Frame.ok (l0 := fun _ => Frame.idle) (fun _ => trivial) (fun t i s l s' l' es hp hst => by
    obtain ⟨h1, h2, -⟩ := regStep_local hp (regStep_rel hst)
    exact ⟨h1, h2⟩) sched s ls tr h
  rwa [← calls_eq] at this

/-! ### Callbacks of `Each` -/

def Frame.todo : Frame V → List (Str × V)
  | .visiting _ rest | .inVisit _ rest => rest
  | .runlock (.visiting _ rest) => rest
  | _ => []

theorem visits_inv {K : Kinds V} {m0 : List (Str × V)} {sched : List (Nat × RIn V)} {s ls tr} (hp : ∀ x ∈ sched, x.2 ≠ .panics)
    (h : (regMachine K).run (.init m0) (fun _ => .idle) sched = some (s, ls, tr)) (t : Nat) :
    visitsOf t tr ++ (ls t).todo = (eachLists t tr).flatten := by
  have key := (regMachine K).induct_on (fun i => i ≠ .panics) (s0 := .init m0) (l0 := fun _ => .idle)
    (fun _ ls tr => (∀ u, (ls u).ok) ∧ ∀ t, visitsOf t tr ++ (ls t).todo = (eachLists t tr).flatten) ⟨fun _ => trivial, fun _ => rfl⟩ ?_ sched s ls tr hp h
  · exact key.2 t
  intro s ls tr t i s' l' es hi ⟨hok, hinv⟩ hst
  have hrel := regStep_rel hst
  have hok' := (regStep_local (hok t) hrel).1
  refine ⟨fun u => ?_, fun u => ?_⟩
  · rcases eq_or_ne u t with rfl | hne
    · simpa using hok'
    · rw [Function.update_of_ne hne]; exact hok u
  have ev : ∀ u, visitsOf u (tr ++ es) = visitsOf u tr ++ visitsOf u es := fun u => List.filterMap_append
  have el : ∀ u, eachLists u (tr ++ es) = eachLists u tr ++ eachLists u es := fun u => List.filterMap_append
  rw [ev, el, List.flatten_append, ← hinv u, List.append_assoc, List.append_assoc]
  congr 1
  rcases eq_or_ne u t with rfl | hne
  · rw [Function.update_self]
    have hpan : ∀ a b, ls u = .inVisit a b → l' = .visiting a b := by
      intro a b hl
      have hst' : regStep K u i s (ls u) = some (s', l', es) := hst
      rw [hl] at hst'
      cases i <;> simp [regStep] at hst' hi ⊢
      exact hst'.2.1.symm
    have hok1 := hok u
    generalize ls u = l at hrel hpan hok1
    cases hrel
    case call o => cases o <;> rfl
    case runlock => cases l' <;> first | exact hok1.elim | simp [visitsOf, eachLists, Frame.todo]
    case visitPanic => have := hpan _ _ rfl; simp at this
    case each => simp [visitsOf, eachLists, Frame.todo]
    all_goals simp [visitsOf, eachLists, Frame.todo]
  · rw [Function.update_of_ne hne]
    have h1 : visitsOf u es = [] := by
      generalize ls t = l at hrel
      cases hrel <;> simp [visitsOf, Ne.symm hne]
    have h2 : eachLists u es = [] := by
      generalize ls t = l at hrel
      cases hrel <;> simp [eachLists, Ne.symm hne]
    rw [h1, h2]
    simp

/-! ### `GetOrRegister` of one name -/

theorem Wf.pend_inv {Op R : Type} {st : Nat → TS Op R} {tr : List (CEv Op R)} (h : Wf allIdle tr st) {t : Nat} {o : Op} :
    (st t = .pend o → .inv t o ∈ tr) ∧ ∀ r, st t = .done o r → .inv t o ∈ tr := by
  induction tr using List.reverseRecOn generalizing st with
  | nil => cases h; simp [allIdle]
  | append_singleton tr e ih =>
    obtain ⟨st', h1, h2⟩ := h.snoc_inv
    obtain ⟨i1, i2⟩ := ih h1
    have key : ∀ u x, Function.update st' u x t = st' t ∨ (u = t ∧ Function.update st' u x t = x) := by
      intro u x
      rcases eq_or_ne t u with rfl | hne
      · exact .inr ⟨rfl, by simp⟩
      · exact .inl (Function.update_of_ne hne ..)
    cases h2 with
    | @inv u o' hu =>
      rcases key u (.pend o') with e | ⟨rfl, e⟩ <;> rw [e]
      · exact ⟨fun h => by simp [i1 h], fun r h => by simp [i2 r h]⟩
      · refine ⟨fun h => ?_, fun r h => by simp at h⟩
        simp only [TS.pend.injEq] at h
        subst h
        simp
    | @lin u o' r' hu =>
      rcases key u (.done o' r') with e | ⟨rfl, e⟩ <;> rw [e]
      · exact ⟨fun h => by simp [i1 h], fun r h => by simp [i2 r h]⟩
      · refine ⟨fun h => by simp at h, fun r h => ?_⟩
        simp only [TS.done.injEq] at h
        obtain ⟨rfl, rfl⟩ := h
        simp [i1 hu]
    | @ret u o' r' hu =>
      rcases key u .idle with e | ⟨rfl, e⟩ <;> rw [e]
      · exact ⟨fun h => by simp [i1 h], fun r h => by simp [i2 r h]⟩
      · exact ⟨fun h => by simp at h, fun r h => by simp at h⟩

theorem Wf.ret_lin {Op R : Type} {st : Nat → TS Op R} {tr : List (CEv Op R)} (h : Wf allIdle tr st) {t : Nat} {o : Op} {r : R} (hm : .ret t o r ∈ tr) :
    .lin t o r ∈ tr := by
  have key : ∀ {st : Nat → TS Op R} {tr}, Wf allIdle tr st → st t = .done o r → .lin t o r ∈ tr := by
    intro st tr h
    induction tr using List.reverseRecOn generalizing st with
    | nil => cases h; simp [allIdle]
    | append_singleton tr e ih =>
      intro hd
      obtain ⟨st', h1, h2⟩ := h.snoc_inv
      cases h2 with
      | @inv u o' hu =>
        rcases eq_or_ne t u with rfl | hne
        · simp at hd
        · rw [Function.update_of_ne hne] at hd; simp [ih h1 hd]
      | @lin u o' r' hu =>
        rcases eq_or_ne t u with rfl | hne
        · simp at hd; simp [hd]
        · rw [Function.update_of_ne hne] at hd; simp [ih h1 hd]
      | @ret u o' r' hu =>
        rcases eq_or_ne t u with rfl | hne
        · simp at hd
        · rw [Function.update_of_ne hne] at hd; simp [ih h1 hd]
  obtain ⟨a, b, rfl⟩ := List.append_of_mem hm
  obtain ⟨st', h1, h2⟩ := h.split
  cases h2 with
  | cons hs _ =>
    cases hs with
    | ret hd => simp [key h1 hd]

theorem calls_append (a b : List (REv V)) : calls (a ++ b) = calls a ++ calls b := List.filterMap_append

theorem Spec.Calm.left {K : Kinds V} {name : Str} {a b : List (REv V)} (h : Calm K name (a ++ b)) : Calm K name a := by
  refine ⟨fun t o hm => h.stays t o ?_, fun t x v hm => h.metric t x v ?_, fun t x hm => h.noPanic t x ?_⟩ <;> rw [calls_append] <;> exact List.mem_append_left _ hm

theorem ctorCalls_append (name : Str) (a b : List (REv V)) : ctorCalls name (a ++ b) = ctorCalls name a + ctorCalls name b := by
  simp [ctorCalls]

structure NameInv (name : Str) (s : RegS V) (ls : Nat → Frame V) (tr : List (REv V)) : Prop where
  agree : ∀ t a v, .lin t (.getOrRegister name a) (.value (some v)) ∈ calls tr → find s.metrics name = some v
  get : ∀ t a, .lin t (.getOrRegister name a) (.value none) ∉ calls tr
  le : ctorCalls name tr ≤ 1
  ge : 1 ≤ ctorCalls name tr → find s.metrics name ≠ none ∨ ∃ t, ls t = .inCtor name
  inCtor : (∃ t, ls t = .inCtor name) → 1 ≤ ctorCalls name tr
  made : (∀ t v, .inv t (.register name v) ∉ calls tr) → (∀ t v, .inv t (.getOrRegister name (.val v)) ∉ calls tr) → find s.metrics name ≠ none → 1 ≤ ctorCalls name tr

theorem name_inv {K : Kinds V} {m0 : List (Str × V)} (h0 : (m0.map Prod.fst).Nodup) {name : Str} (hf : find m0 name = none) {sched : List (Nat × RIn V)} {s ls tr}
    (h : (regMachine K).run (.init m0) (fun _ => .idle) sched = some (s, ls, tr)) (hc : Calm K name tr) : NameInv name s ls tr := by
  revert hc
  refine (regMachine K).induct_reach (fun s ls tr => Calm K name tr → NameInv name s ls tr) ?_ ?_ sched s ls tr h
  · intro _
    refine ⟨fun t a v h => by simp [calls] at h, fun t a h => by simp [calls] at h, by simp [ctorCalls], fun h => by simp [ctorCalls] at h, fun ⟨t, h⟩ => by simp at h, fun _ _ h => absurd hf h⟩
  intro s ls tr t i s' l' es ⟨sched, hreach⟩ ih hst hc
  obtain ⟨j1, j2, j3, j4, j5, j6⟩ := ih hc.left
  have hrel := regStep_rel hst
  have hR := reg_inv h0 hreach
  have hwf := reg_wf hreach
  have hR' := hR.step hrel
  -- the call in progress was invoked
  have hinv : ∀ o, (ls t).abs = .pend o → .inv t o ∈ calls tr := fun o ho => hwf.pend_inv.1 ho
  have hst' : ∀ o, (ls t).abs = .pend o → ¬ removes name o := fun o ho => hc.left.stays t o (hinv o ho)
  have hcalls : ∀ e, e ∈ calls (tr ++ es) ↔ e ∈ calls tr ∨ e ∈ calls es := fun e => by rw [calls_append, List.mem_append]
  -- steps that do not start or end a constructor for the name
  have quiet : (find s'.metrics name = find s.metrics name ∨ (find s.metrics name = none ∧ ((∃ v, .inv t (.register name v) ∈ calls tr) ∨
        ∃ v, .inv t (.getOrRegister name (.val v)) ∈ calls tr))) →
      (∀ u a r, .lin u (.getOrRegister name a) r ∈ calls es → ∃ v, r = .value (some v) ∧ find s'.metrics name = some v) →
      ctorCalls name es = 0 → ls t ≠ .inCtor name → l' ≠ .inCtor name → NameInv name s' (Function.update ls t l') (tr ++ es) := by
    intro q1 q2 q3 q4 q5
    have hct : (∃ u, Function.update ls t l' u = .inCtor name) ↔ ∃ u, ls u = .inCtor name := by
      constructor
      · rintro ⟨u, hu⟩
        rcases eq_or_ne u t with rfl | hne
        · rw [Function.update_self] at hu; exact absurd hu q5
        · rw [Function.update_of_ne hne] at hu; exact ⟨u, hu⟩
      · rintro ⟨u, hu⟩
        rcases eq_or_ne u t with rfl | hne
        · exact absurd hu q4
        · exact ⟨u, by rw [Function.update_of_ne hne]; exact hu⟩
    have hkeep : find s.metrics name ≠ none → find s'.metrics name = find s.metrics name := by
      intro hne
      rcases q1 with e | ⟨e, -⟩
      · exact e
      · exact absurd e hne
    refine ⟨fun u a v hm => ?_, fun u a hm => ?_, ?_, ?_, ?_, ?_⟩
    · rcases (hcalls _).1 hm with hm | hm
      · have := j1 u a v hm
        rw [hkeep (by simp [this]), this]
      · obtain ⟨w, e1, e2⟩ := q2 u a _ hm
        simp only [RRes.value.injEq, Option.some.injEq] at e1
        rw [e1]; exact e2
    · rcases (hcalls _).1 hm with hm | hm
      · exact j2 u a hm
      · obtain ⟨w, e1, -⟩ := q2 u a _ hm
        simp at e1
    · rw [ctorCalls_append, q3]; exact j3
    · rw [ctorCalls_append, q3, hct]
      intro h1
      rcases j4 h1 with h2 | h2
      · exact .inl (by rw [hkeep h2]; exact h2)
      · exact .inr h2
    · rw [ctorCalls_append, q3, hct]; exact j5
    · rw [ctorCalls_append, q3]
      intro n1 n2 hne
      have m1 : ∀ u v, .inv u (.register name v) ∉ calls tr := fun u v hm => n1 u v ((hcalls _).2 (.inl hm))
      have m2 : ∀ u v, .inv u (.getOrRegister name (.val v)) ∉ calls tr := fun u v hm => n2 u v ((hcalls _).2 (.inl hm))
      rcases q1 with e | ⟨-, ⟨v, e⟩ | ⟨v, e⟩⟩
      · exact j6 m1 m2 (by rw [← e]; exact hne)
      · exact absurd e (m1 t v)
      · exact absurd e (m2 t v)
  have hregister : ∀ n v, n ≠ name → find (s.register K n v).metrics name = find s.metrics name := by
    intro n v hne
    rcases hf : find s.metrics n with _ | w
    · rw [register_find K s hf]
      unfold bound
      split_ifs
      · rw [Function.update_of_ne (Ne.symm hne)]
      · rfl
    · rw [register_taken K s hf]
  have hl1 := hR.ctor t
  have hex : (ls t).hold = .write → ∀ u, ls u = .inCtor name → u = t := by
    intro hw u hu
    exact hR.lock.excl hw (.inl (by rw [hu]; rfl))
  have hokt := hR.ok t
  generalize hlt : ls t = l at hrel quiet hinv hst' hl1 hex hokt
  cases hrel
  case call o => exact quiet (.inl rfl) (by simp [calls]) rfl (by simp) (by cases o <;> simp [startFrame])
  case runlock => exact quiet (.inl rfl) (by simp [calls]) rfl (by simp) (by rintro rfl; exact hokt.elim)
  case hit n a v hf =>
    refine quiet (.inl rfl) (fun u b r hm => ?_) rfl (by simp) (by simp)
    simp only [calls, List.filterMap_cons, List.filterMap_nil, List.mem_singleton, CEv.lin.injEq, ROp.getOrRegister.injEq] at hm
    obtain ⟨-, ⟨rfl, -⟩, rfl⟩ := hm
    exact ⟨v, rfl, hf⟩
  case hit2 n a v hf =>
    refine quiet (.inl rfl) (fun u b r hm => ?_) rfl (by simp) (by simp)
    simp only [calls, List.filterMap_cons, List.filterMap_nil, List.mem_singleton, CEv.lin.injEq, ROp.getOrRegister.injEq] at hm
    obtain ⟨-, ⟨rfl, -⟩, rfl⟩ := hm
    exact ⟨v, rfl, hf⟩
  case given n v hfn =>
    refine quiet ?_ (fun u b r hm => ?_) rfl (by simp) (by simp)
    · rcases eq_or_ne n name with rfl | hne
      · exact .inr ⟨hfn, .inr ⟨v, hinv _ rfl⟩⟩
      · exact .inl (hregister n v hne)
    · simp only [calls, List.filterMap_cons, List.filterMap_nil, List.mem_singleton, CEv.lin.injEq, ROp.getOrRegister.injEq] at hm
      obtain ⟨-, ⟨rfl, -⟩, rfl⟩ := hm
      refine ⟨v, rfl, ?_⟩
      have := hc.metric t (.val v) v ((hcalls _).2 (.inr (by simp [calls])))
      rw [register_find K s hfn, bound, if_pos this, Function.update_self]
  case register n v =>
    refine quiet ?_ (by simp [calls]) rfl (by simp) (by simp)
    rcases eq_or_ne n name with rfl | hne
    · rcases hf : find s.metrics n with _ | w
      · exact .inr ⟨rfl, .inl ⟨v, hinv _ rfl⟩⟩
      · rw [register_taken K s hf]; exact .inl hf
    · exact .inl (hregister n v hne)
  case unregister n l he =>
    refine quiet (.inl ?_) (by simp [calls]) rfl (by simp) (by simp)
    have hne : n ≠ name := hst' _ rfl
    simp only [find_filter]
    rw [Function.update_of_ne (Ne.symm hne)]
  case clear => exact absurd trivial (hst' _ rfl)
  case clearing => exact absurd trivial (hst' _ rfl)
  case cleared => exact absurd trivial (hst' _ rfl)
  case ctor n hfn =>
    rcases eq_or_ne n name with rfl | hne
    · have hno : ∀ u, ls u ≠ .inCtor n := by
        intro u hu
        have := hex rfl u hu
        subst this
        rw [hlt] at hu
        simp at hu
      have hz : ctorCalls n tr = 0 := by
        by_contra hz
        rcases j4 (by omega) with h1 | ⟨u, hu⟩
        · exact h1 hfn
        · exact hno u hu
      have h1 : ctorCalls n (tr ++ [.ctor t n]) = 1 := by rw [ctorCalls_append, hz]; simp [ctorCalls]
      have hcalls' : calls (tr ++ [REv.ctor t n]) = calls tr := by rw [calls_append]; simp [calls]
      refine ⟨?_, ?_, by rw [h1], fun _ => .inr ⟨t, by simp⟩, fun _ => by rw [h1], fun _ _ _ => by rw [h1]⟩
      · rw [hcalls']; exact j1
      · rw [hcalls']; exact j2
    · refine quiet (.inl rfl) (by simp [calls]) ?_ (by simp) (by simp [hne])
      simp [ctorCalls, hne]
  case made n v =>
    rcases eq_or_ne n name with rfl | hne
    · have hm := hc.metric t .fn v ((hcalls _).2 (.inr (by simp [calls])))
      have hs : find (s.register K n v).metrics n = some v := by
        rw [register_find K s (hl1 n rfl), bound, if_pos hm, Function.update_self]
      have hge := j5 ⟨t, hlt⟩
      have hz : ctorCalls n [REv.call (.lin t (.getOrRegister n (.fn : Arg V)) (.value (some v)))] = 0 := rfl
      refine ⟨fun u a w hw => ?_, fun u a hw => ?_, ?_, fun _ => .inl (by rw [hs]; simp), fun _ => ?_, fun _ _ _ => ?_⟩
      · rcases (hcalls _).1 hw with hw | hw
        · have := j1 u a w hw
          rw [hl1 n rfl] at this
          simp at this
        · simp only [calls, List.filterMap_cons, List.filterMap_nil, List.mem_singleton, CEv.lin.injEq, RRes.value.injEq, Option.some.injEq] at hw
          rw [hs, hw.2.2]
      · rcases (hcalls _).1 hw with hw | hw
        · exact j2 u a hw
        · simp [calls] at hw
      · rw [ctorCalls_append, hz]; exact j3
      · rw [ctorCalls_append]; omega
      · rw [ctorCalls_append]; omega
    · refine quiet (.inl (hregister n v hne)) ?_ rfl (by simp [hne]) (by simp)
      intro u b r hm
      simp only [calls, List.filterMap_cons, List.filterMap_nil, List.mem_singleton, CEv.lin.injEq, ROp.getOrRegister.injEq] at hm
      exact absurd hm.2.1.1.symm hne
  case panicked n =>
    rcases eq_or_ne n name with rfl | hne
    · exact absurd ((hcalls _).2 (.inr (by simp [calls]))) (hc.noPanic t .fn)
    · refine quiet (.inl rfl) ?_ rfl (by simp [hne]) (by simp)
      intro u b r hm
      simp only [calls, List.filterMap_cons, List.filterMap_nil, List.mem_singleton, CEv.lin.injEq, ROp.getOrRegister.injEq] at hm
      exact absurd hm.2.1.1.symm hne
  all_goals exact quiet (.inl rfl) (by simp [calls]) rfl (by simp) (by simp)

end GoMetrics
