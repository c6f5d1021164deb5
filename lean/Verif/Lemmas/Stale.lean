import Verif.Lemmas.TimeShift
import Verif.Lemmas.ExpDecay
import Verif.Spec.Clear

/-! The memory behind the slice of an exponentially decaying sample has no influence (C106). -/

set_option linter.unusedSimpArgs false
set_option linter.unnecessarySeqFocus false
set_option linter.unusedSectionVars false
set_option linter.unnecessarySimpa false

namespace GoMetrics.Stale
open GoMetrics GoMetrics.Spec

variable {F : Type} [GoFloat F] [GoSqrt F] [GoExp F] {α β : Type}

/-! ### One sample -/

/-- The same panic, or related results. -/
inductive RelRes (R : α → β → Prop) : Res α → Res β → Prop
  | error (p : Panic) : RelRes R (.error p) (.error p)
  | ok {a : α} {b : β} : R a b → RelRes R (.ok a) (.ok b)

/-- The same slice in a backing array of capacity `n`. -/
structure HS (n : Nat) (h h' : Heap F) : Prop where
  s : h'.s = h.s
  cap : h.s.length + h.rest.length = n
  cap' : h'.s.length + h'.rest.length = n

theorem HS.len {n : Nat} {h h' : Heap F} (x : HS n h h') : h'.rest.length = h.rest.length := by
  have := x.cap; have := x.cap'; rw [x.s] at this; omega

theorem hs_push {n : Nat} {h h' : Heap F} (x : HS n h h') (i : Item F) : RelRes (HS n) (h.push i) (h'.push i) := by
  have hl := x.len
  have hc := x.cap
  rcases hr : h.rest with _ | ⟨y, rest⟩
  · have : h'.rest = [] := by rw [hr] at hl; exact List.length_eq_zero_iff.1 hl
    simp only [Heap.push, hr, this]
    exact .error _
  · rcases hr' : h'.rest with _ | ⟨y', rest'⟩
    · rw [hr, hr'] at hl; simp at hl
    · simp only [Heap.push, hr, hr', x.s]
      obtain ⟨s', h1, h2, -⟩ := heapUp_spec (h.s ++ [i]) h.s.length (by simp)
      rw [h1]
      have hlen : s'.length = h.s.length + 1 := by rw [h2.length_eq]; simp
      rw [hr, hr'] at hl
      rw [hr] at hc
      refine .ok ⟨rfl, ?_, ?_⟩ <;> simp only [List.length_cons] at * <;> omega

theorem hs_pop {n : Nat} {h h' : Heap F} (x : HS n h h') : RelRes (fun a b => HS n a.2 b.2) h.pop h'.pop := by
  rcases hs : h.s with _ | ⟨y, l⟩
  · simp only [Heap.pop, x.s, hs, List.length_nil]
    exact .error _
  · have e : h.pop = h'.pop.map fun a => (a.1, { s := a.2.s, rest := a.2.rest.take (a.2.rest.length - h'.rest.length) ++ h.rest }) := by
      simp only [Heap.pop, x.s]
      rcases h.s.length with _ | m
      · rfl
      · dsimp only
        rcases swapItems h.s 0 m with _ | s
        · rfl
        · show (heapDown s 0 m >>= fun s => _ : Res _) = Except.map _ (heapDown s 0 m >>= fun s => _ : Res _)
          rcases heapDown s 0 m with _ | s
          · rfl
          · show (index s m >>= fun x => _ : Res _) = Except.map _ (index s m >>= fun x => _ : Res _)
            rcases index s m with _ | z
            · rfl
            · show Except.ok _ = Except.ok _
              simp
    obtain ⟨z, h1, e1, p1, l1, -⟩ := pop_spec h' (by rw [x.s, hs]; simp)
    rw [e, e1]
    have hl := x.len
    have hc := x.cap'
    have := p1.length_eq
    simp only [List.length_cons] at this
    refine .ok ⟨rfl, ?_, by dsimp only; omega⟩
    simp only [List.length_append, List.length_take]
    omega

theorem hs_rescale (f : F) (n i cap : Nat) (h h' : Heap F) (x : HS cap h h') (hi : h.s.length = i) (ht : h'.rest.take (n - i) = h.rest.take (n - i)) :
    RelRes (HS cap) (ExpDecaySample.rescaleLoop f n i h) (ExpDecaySample.rescaleLoop f n i h') := by
  induction hk : n - i generalizing i h h' with
  | zero =>
    rw [ExpDecaySample.rescaleLoop, ExpDecaySample.rescaleLoop, if_neg (by omega), if_neg (by omega)]
    exact .ok x
  | succ k ih =>
    rw [ExpDecaySample.rescaleLoop, ExpDecaySample.rescaleLoop, if_pos (by omega), if_pos (by omega)]
    have hl := x.len
    rcases hr : h.rest with _ | ⟨y, rest⟩
    · have hr' : h'.rest = [] := by rw [hr] at hl; exact List.length_eq_zero_iff.1 hl
      rw [hr', x.s, List.append_nil]
      have : index h.s (i : Int) = .error .index := by
        simp [index, ← hi]
      rw [this]
      exact .error _
    · rcases hr' : h'.rest with _ | ⟨y', rest'⟩
      · rw [hr, hr'] at hl; simp at hl
      · rw [hr, hr', hk] at ht
        simp only [List.take_succ_cons, List.cons.injEq] at ht
        obtain ⟨rfl, ht⟩ := ht
        have i1 : index (h.s ++ y' :: rest) (i : Int) = .ok y' := by
          rw [index_nat (by simp; omega)]; congr 1; simp [← hi]
        have i2 : index (h'.s ++ y' :: rest') (i : Int) = .ok y' := by
          rw [x.s, index_nat (by simp; omega)]; congr 1; simp [← hi]
        rw [i1, i2]
        obtain ⟨g, e1, p1, r1, -⟩ := push_spec h { k := GoFloat.mul y'.k f, v := y'.v } y' rest hr
        obtain ⟨g', e2, p2, r2, -⟩ := push_spec h' { k := GoFloat.mul y'.k f, v := y'.v } y' rest' hr'
        have hp := hs_push x { k := GoFloat.mul y'.k f, v := y'.v }
        rw [e1, e2] at hp
        rcases hp with _ | hp
        show RelRes _ (h.push _ >>= fun h => _ : Res _) (h'.push _ >>= fun h => _ : Res _)
        rw [e1, e2]
        have hg : g.s.length = i + 1 := by rw [p1.length_eq, List.length_cons, hi]
        refine ih (i + 1) g g' hp hg ?_ (by omega)
        rw [r1, r2, show n - (i + 1) = k by omega]
        exact ht

/-- The same sample up to the memory behind the slice of its heap; the capacity is the reservoir size. -/
structure ES (s s' : ExpDecaySample F) : Prop where
  alpha : s'.alpha = s.alpha
  count : s'.count = s.count
  reservoirSize : s'.reservoirSize = s.reservoirSize
  t0 : s'.t0 = s.t0
  t1 : s'.t1 = s.t1
  heap : HS s.reservoirSize.toNat s.values s'.values
  pos : 0 ≤ s.reservoirSize

theorem ES.refl_of {s s' : ExpDecaySample F} (h : ES s s') : ES s s :=
  ⟨rfl, rfl, rfl, rfl, rfl, ⟨rfl, h.heap.cap, h.heap.cap⟩, h.pos⟩

theorem es_update {s s' : ExpDecaySample F} (h : ES s s') (t : Instant) (v : Int64) (u : F) : RelRes ES (s.update t v u) (s'.update t v u) := by
  obtain ⟨a, c, k, t0, t1, hp⟩ := s
  obtain ⟨a', c', k', t0', t1', hp'⟩ := s'
  obtain ⟨e1, e2, e3, e4, e5, hh, h0⟩ := h
  simp only at e1 e2 e3 e4 e5 hh h0
  subst e1 e2 e3 e4 e5
  have main : ∀ g g' : Heap F, HS k'.toNat g g' → RelRes ES
      ((do
        let h ← g.push { k := ExpDecaySample.key a' t0' t u, v := v }
        if t > t1' then
          let h ← ExpDecaySample.rescaleLoop (ExpDecaySample.factor a' t0' t) h.s.length 0 h.clear
          return { alpha := a', count := c' + 1, reservoirSize := k', t0 := t, t1 := t + hour, values := h }
        else return { alpha := a', count := c' + 1, reservoirSize := k', t0 := t0', t1 := t1', values := h }) : Res (ExpDecaySample F))
      (do
        let h ← g'.push { k := ExpDecaySample.key a' t0' t u, v := v }
        if t > t1' then
          let h ← ExpDecaySample.rescaleLoop (ExpDecaySample.factor a' t0' t) h.s.length 0 h.clear
          return { alpha := a', count := c' + 1, reservoirSize := k', t0 := t, t1 := t + hour, values := h }
        else return { alpha := a', count := c' + 1, reservoirSize := k', t0 := t0', t1 := t1', values := h }) := by
    intro g g' hg
    have h1 := hs_push hg { k := ExpDecaySample.key a' t0' t u, v := v }
    generalize g.push _ = p at h1
    generalize g'.push _ = p' at h1
    rcases h1 with e | h1
    · exact .error _
    · rename_i b b'
      by_cases hb : t > t1'
      · simp only [bind, Except.bind, if_pos hb, h1.s]
        have h2 := hs_rescale (ExpDecaySample.factor a' t0' t) b.s.length 0 k'.toNat b.clear b'.clear
          ⟨rfl, by have := h1.cap; simp [Heap.clear]; omega, by have := h1.cap'; simp [Heap.clear]; omega⟩ rfl
          (by simp [Heap.clear, h1.s])
        generalize ExpDecaySample.rescaleLoop _ _ _ b.clear = q at h2
        generalize ExpDecaySample.rescaleLoop _ _ _ b'.clear = q' at h2
        rcases h2 with e | h2
        · exact .error _
        · exact .ok ⟨rfl, rfl, rfl, rfl, rfl, h2, h0⟩
      · simp only [bind, Except.bind, if_neg hb]
        exact .ok ⟨rfl, rfl, rfl, rfl, rfl, h1, h0⟩
  have hsz : hp'.size = hp.size := by simp [Heap.size, hh.s]
  by_cases hr : (hp.size : Int) = k'
  · simp only [ExpDecaySample.update, hsz, hr, ↓reduceIte]
    have h1 := hs_pop hh
    generalize hp.pop = p at h1
    generalize hp'.pop = p' at h1
    rcases h1 with e | h1
    · exact .error _
    · exact main _ _ h1
  · simp only [ExpDecaySample.update, hsz, hr, ↓reduceIte]
    exact main _ _ hh

theorem es_clear {s s' : ExpDecaySample F} (h : ES s s') (t : Instant) : ES (s.clear t) (s'.clear t) :=
  ⟨h.alpha, rfl, h.reservoirSize, rfl, rfl,
    ⟨rfl, by have := h.heap.cap; simp [ExpDecaySample.clear, Heap.clear]; omega, by have := h.heap.cap'; simp [ExpDecaySample.clear, Heap.clear]; omega⟩, h.pos⟩

theorem es_new {k : Int} {a : F} {t : Instant} {s : ExpDecaySample F} (h : ExpDecaySample.new k a t = .ok s) : ES s s := by
  unfold ExpDecaySample.new Heap.new at h
  split at h
  · cases h
  · cases h
    exact ⟨rfl, rfl, rfl, rfl, rfl, ⟨rfl, by simp, by simp⟩, by dsimp only; omega⟩

/-- A cleared sample is like a new one. -/
theorem es_fresh {s s' f : ExpDecaySample F} (h : ES s s') {t : Instant} (hf : ExpDecaySample.new s.reservoirSize s.alpha t = .ok f) : ES (s.clear t) f := by
  unfold ExpDecaySample.new Heap.new at hf
  split at hf
  · cases hf
  · cases hf
    exact ⟨rfl, rfl, rfl, rfl, rfl, ⟨rfl, by have := h.heap.cap; simp [ExpDecaySample.clear, Heap.clear]; omega, by simp [ExpDecaySample.clear]⟩, h.pos⟩

/-! ### The store -/

/-- Not an exponentially decaying sample, and not a uniform one with a negative reservoir size or more values than that. -/
def plain : Obj F → Bool
  | .sample (.exp _) => false
  | .sample (.uniform s) => (s.values.length : Int) ≤ s.reservoirSize
  | _ => true

inductive OS : Obj F → Obj F → Prop
  | exp {s s' : ExpDecaySample F} : ES s s' → OS (.sample (.exp s)) (.sample (.exp s'))
  | same (o : Obj F) : plain o = true → OS o o

inductive OptS : Option (Obj F) → Option (Obj F) → Prop
  | none : OptS none none
  | some {o o' : Obj F} : OS o o' → OptS (some o) (some o')

/-- The same store up to the memory behind the slices of the heaps. -/
structure WS (w w' : World F) : Prop where
  objs : ∀ r, OptS (w.objs r) (w'.objs r)
  eq : w' = { w with objs := w'.objs }

/-- The same result from such stores, and such stores afterwards. -/
structure RS (a b : Act F α) : Prop where
  rel : ∀ w w', WS w w' → WS (a w).1 (b w').1 ∧ (b w').2 = (a w).2

theorem rs_pure (x : α) : RS (pure x : Act F α) (pure x) := ⟨fun _ _ h => ⟨h, rfl⟩⟩
theorem rs_fail (p : Panic) : RS (Act.fail p : Act F α) (Act.fail p) := ⟨fun _ _ h => ⟨h, rfl⟩⟩
theorem rs_lift (r : Res α) : RS (Act.lift r : Act F α) (Act.lift r) := ⟨fun _ _ h => ⟨h, rfl⟩⟩
theorem rs_bind {x y : Act F α} {f g : α → Act F β} (h : RS x y) (hf : ∀ a, RS (f a) (g a)) : RS (x >>= f) (y >>= g) := by
  refine ⟨fun w w' hw => ?_⟩
  rw [act_bind, act_bind]
  obtain ⟨h1, h2⟩ := h.rel w w' hw
  generalize x w = p at h1 h2
  generalize y w' = q at h1 h2
  obtain ⟨w1, r1⟩ := p
  obtain ⟨w2, r2⟩ := q
  simp only at h2
  subst h2
  rcases r2 with _ | a
  · exact ⟨h1, rfl⟩
  · exact (hf a).rel w1 w2 h1
theorem rs_get {r : Ref} {f g : Option (Obj F) → Act F β} (hf : ∀ o o', OptS o o' → RS (f o) (g o')) : RS (getObj r >>= f) (getObj r >>= g) :=
  ⟨fun w w' h => (hf _ _ (h.objs r)).rel w w' h⟩
theorem rs_set (r : Ref) {o o' : Obj F} (h : OS o o') : RS (setObj r o) (setObj r o') := by
  refine ⟨fun w w' hw => ⟨⟨fun q => ?_, ?_⟩, rfl⟩⟩
  · simp only [setObj]
    rcases eq_or_ne q r with rfl | hq
    · simp only [Function.update_self]; exact .some h
    · simp only [Function.update_of_ne hq]; exact hw.objs q
  · simp only [setObj]; rw [hw.eq]
theorem rs_alloc {o o' : Obj F} (h : OS o o') : RS (alloc o) (alloc o') := by
  refine ⟨fun w w' hw => ?_⟩
  have hn : w'.nextObj = w.nextObj := by rw [hw.eq]
  refine ⟨⟨fun q => ?_, ?_⟩, by simp only [alloc, hn]⟩
  · simp only [alloc, hn]
    rcases eq_or_ne q w.nextObj with rfl | hq
    · simp only [Function.update_self]; exact .some h
    · simp only [Function.update_of_ne hq]; exact hw.objs q
  · simp only [alloc, hn]; rw [hw.eq]
theorem rs_getArr (a : ArrId) : RS (getArr a : Act F _) (getArr a) := ⟨fun w w' h => ⟨h, by rw [h.eq]; rfl⟩⟩
theorem rs_getReg (a : Nat) : RS (getReg a : Act F _) (getReg a) := ⟨fun w w' h => ⟨h, by rw [h.eq]; rfl⟩⟩
theorem rs_sortArr (a : ArrId) : RS (sortArr a : Act F _) (sortArr a) := ⟨fun w w' h => ⟨⟨fun r => h.objs r, by simp only [sortArr]; rw [h.eq]⟩, rfl⟩⟩
theorem rs_newArr (l : List Int64) (b : Bool) : RS (newArr l b : Act F _) (newArr l b) :=
  ⟨fun w w' h => ⟨⟨fun r => h.objs r, by simp only [newArr]; rw [h.eq]⟩, by simp only [newArr]; rw [h.eq]⟩⟩
theorem rs_add (r : Ref) : RS (arbiterAdd r : Act F _) (arbiterAdd r) := ⟨fun w w' h => ⟨⟨fun r => h.objs r, by simp only [arbiterAdd]; rw [h.eq]⟩, rfl⟩⟩
theorem rs_del (r : Ref) : RS (arbiterDelete r : Act F _) (arbiterDelete r) := ⟨fun w w' h => ⟨⟨fun r => h.objs r, by simp only [arbiterDelete]; rw [h.eq]⟩, rfl⟩⟩
theorem rs_setReg (i : Nat) (m : List (Str × Ref)) : RS (setReg i m : Act F _) (setReg i m) :=
  ⟨fun w w' h => ⟨⟨fun r => h.objs r, by simp only [setReg]; rw [h.eq]⟩, rfl⟩⟩
theorem rs_ref {o o' : Obj F} (h : OS o o') : RS (do return .ref (← alloc o) : Act F (Out F)) (do return .ref (← alloc o')) :=
  rs_bind (rs_alloc h) fun _ => rs_pure _
theorem rs_set_unit (r : Ref) {o o' : Obj F} (h : OS o o') : RS (do setObj r o; return .unit : Act F (Out F)) (do setObj r o'; return .unit) :=
  rs_bind (rs_set r h) fun _ => rs_pure _

theorem rs_read {r : Ref} {f : Option (Obj F) → Act F β} (h0 : RS (f none) (f none))
    (he : ∀ s s' : ExpDecaySample F, ES s s' → RS (f (some (.sample (.exp s)))) (f (some (.sample (.exp s')))))
    (hs : ∀ o, plain o = true → RS (f (some o)) (f (some o))) : RS (getObj r >>= f) (getObj r >>= f) := by
  refine rs_get fun o o' h => ?_
  rcases h with _ | h
  · exact h0
  · rcases h with h | ⟨o, h⟩
    · exact he _ _ h
    · exact hs _ h

theorem es_vals {s s' : ExpDecaySample F} (h : ES s s') : s'.vals = s.vals := by simp [ExpDecaySample.vals, h.heap.s]

theorem rs_expCall (env : Env F) (r : Ref) {s s' : ExpDecaySample F} (h : ES s s') (c : Call F) :
    RS (sampleCall env r (.exp s) c) (sampleCall env r (.exp s') c) := by
  cases c <;> try exact rs_pure _
  · exact rs_set_unit _ (.exp (es_clear h _))
  · simp only [sampleCall, h.count]; exact rs_pure _
  · refine rs_bind (rs_set _ (.exp ⟨h.alpha, by simp [h.count], h.reservoirSize, h.t0, h.t1, h.heap, h.pos⟩)) fun _ => ?_
    have hu := es_update h env.now ‹Int64› env.float64
    generalize s.update env.now _ env.float64 = p at hu
    generalize s'.update env.now _ env.float64 = p' at hu
    rcases hu with e | hu
    · exact rs_fail _
    · exact rs_set_unit r (.exp hu)
  · simp only [sampleCall, es_vals h]; exact rs_lift _
  · simp only [sampleCall, ExpDecaySample.size, Heap.size, h.heap.s]; exact rs_pure _
  · simp only [sampleCall, es_vals h]; exact rs_bind (rs_newArr _ _) fun _ => rs_pure _
  · simp only [sampleCall, es_vals h, h.count]; exact rs_bind (rs_newArr _ _) fun _ => rs_ref (.same _ rfl)

theorem update_size {s u : UniformSample} {v : Int64} {d : Nat} (h : s.update v d = .ok u) : u.reservoirSize = s.reservoirSize := by
  unfold UniformSample.update at h
  dsimp only at h
  split at h
  · cases h; rfl
  · cases hn : int63n (s.count + 1).toInt d with
    | error p => rw [hn] at h; cases h
    | ok n =>
      rw [hn] at h
      simp only [bind, Except.bind] at h
      split at h <;> cases h <;> rfl

theorem update_length {s u : UniformSample} {v : Int64} {d : Nat} (h : s.update v d = .ok u) (hs : (s.values.length : Int) ≤ s.reservoirSize) :
    (u.values.length : Int) ≤ s.reservoirSize := by
  unfold UniformSample.update at h
  dsimp only at h
  split at h
  · cases h
    simp only [List.length_append, List.length_singleton]
    omega
  · cases hn : int63n (s.count + 1).toInt d with
    | error p => rw [hn] at h; cases h
    | ok n =>
      rw [hn] at h
      simp only [bind, Except.bind] at h
      split at h <;> cases h
      · simpa using hs
      · exact hs

theorem rs_sampleCall (env : Env F) (r : Ref) (s : SampleV F) (c : Call F) (hs : plain (.sample s) = true) :
    RS (sampleCall env r s c) (sampleCall env r s c) := by
  cases s with
  | exp s => cases hs
  | uniform s =>
    cases c <;> try exact rs_pure _
    · exact rs_set_unit _ (.same _ (by simp only [plain, decide_eq_true_eq] at hs ⊢; simp only [UniformSample.clear, List.length_nil]; omega))
    · rename_i v
      refine rs_bind (rs_set _ (.same _ hs)) fun _ => ?_
      cases e : s.update v env.int63 with
      | error p => exact rs_fail p
      | ok u => exact rs_set_unit _ (.same (.sample (.uniform u)) (by simp only [plain, update_size e, decide_eq_true_eq] at hs ⊢; exact update_length e hs))
    · simp only [sampleCall]
      split
      · exact rs_bind (rs_set _ (.same _ (by simpa only [plain, decide_eq_true_eq, (sortInts_perm s.values).length_eq] using hs))) fun _ => rs_lift _
      · exact rs_lift _
    · exact rs_bind (rs_newArr _ _) fun _ => rs_pure _
    · exact rs_bind (rs_newArr _ _) fun _ => rs_ref (.same _ rfl)
  | snap n a =>
    cases c <;> try first | exact rs_pure _ | exact rs_fail _
    · simp only [sampleCall]
      refine rs_bind (rs_getArr _) fun _ => ?_
      split
      · exact rs_bind (rs_sortArr _) fun _ => rs_lift _
      · exact rs_lift _
    · exact rs_bind (rs_getArr _) fun _ => rs_pure _
    · exact rs_bind (rs_getArr _) fun _ => rs_bind (rs_newArr _ _) fun _ => rs_pure _
  | nil =>
    cases c <;> try exact rs_pure _
    exact rs_bind (rs_newArr _ _) fun _ => rs_pure _

theorem rs_callSample (env : Env F) (r : Ref) (c : Call F) : RS (callSample env r c) (callSample env r c) :=
  rs_read (rs_pure _) (fun _ _ h => rs_expCall env r h c) fun o ho => by
    cases o <;> first | exact rs_pure _ | exact rs_sampleCall env r _ c ho

theorem rs_histCall (env : Env F) (r : Ref) (h : HistV) (c : Call F) : RS (histCall env r h c) (histCall env r h c) := by
  cases h with
  | std s =>
    cases c <;> try first | exact rs_pure _ | exact rs_callSample ..
    refine rs_bind (rs_callSample ..) fun o => ?_
    cases o <;> try exact rs_pure _
    refine rs_read (rs_fail _) (fun _ _ _ => rs_fail _) fun o ho => ?_
    clear ho
    cases o <;> try exact rs_fail _
    rename_i s
    cases s <;> first | exact rs_fail _ | exact rs_ref (.same _ rfl)
  | snap s => cases c <;> first | exact rs_pure _ | exact rs_callSample .. | exact rs_fail _
  | nil => cases c <;> first | exact rs_pure _ | exact rs_ref (.same _ rfl)

theorem rs_callHist (env : Env F) (r : Ref) (c : Call F) : RS (callHist env r c) (callHist env r c) :=
  rs_read (rs_pure _) (fun _ _ _ => rs_pure _) fun o _ => by
    cases o <;> first | exact rs_pure _ | exact rs_histCall ..

theorem rs_meterCall (env : Env F) (r : Ref) (m : Meter F) (c : Call F) : RS (meterCall env r m c) (meterCall env r m c) := by
  cases m with
  | std m =>
    cases c <;> try exact rs_pure _
    · exact rs_bind (rs_lift _) fun _ => rs_set_unit r (.same _ rfl)
    · simp only [meterCall]
      split
      · exact rs_pure _
      · exact rs_bind (rs_set _ (.same _ rfl)) fun _ => rs_bind (rs_del _) fun _ => rs_pure _
    · exact rs_ref (.same _ rfl)
  | snap s =>
    cases c <;> try exact rs_pure _
    exact rs_fail _
  | nil =>
    cases c <;> try exact rs_pure _
    exact rs_bind (rs_lift _) fun _ => rs_set_unit r (.same _ rfl)

theorem rs_callMeter (env : Env F) (r : Ref) (c : Call F) : RS (callMeter env r c) (callMeter env r c) :=
  rs_read (rs_pure _) (fun _ _ _ => rs_pure _) fun o _ => by
    cases o <;> first | exact rs_pure _ | exact rs_meterCall ..

theorem rs_timerCall (env : Env F) (r : Ref) (t : TimerV) (c : Call F) : RS (timerCall env r t c) (timerCall env r t c) := by
  cases t with
  | std h m =>
    cases c <;> try first | exact rs_pure _ | exact rs_callHist .. | exact rs_callMeter ..
    · exact rs_bind (rs_callHist ..) fun _ => rs_callMeter ..
    · exact rs_bind (rs_callHist ..) fun _ => rs_callMeter ..
    · refine rs_bind (rs_callHist ..) fun o => ?_
      cases o <;> try exact rs_pure _
      refine rs_read (rs_fail _) (fun _ _ _ => rs_fail _) fun o ho => ?_
      clear ho
      cases o <;> try exact rs_fail _
      rename_i s
      cases s <;> try exact rs_fail _
      refine rs_bind (rs_callMeter ..) fun o => ?_
      cases o <;> try exact rs_pure _
      refine rs_read (rs_fail _) (fun _ _ _ => rs_fail _) fun o ho => ?_
      clear ho
      cases o <;> try exact rs_fail _
      rename_i s
      cases s <;> first | exact rs_fail _ | exact rs_ref (.same _ rfl)
  | snap h m => cases c <;> first | exact rs_pure _ | exact rs_fail _ | exact rs_callHist .. | exact rs_callMeter ..
  | nil => cases c <;> exact rs_pure _

theorem rs_call (env : Env F) (r : Ref) (c : Call F) : RS (call env r c) (call env r c) :=
  rs_read (rs_pure _) (fun _ _ h => rs_expCall env r h c) fun o ho => by
    cases o with
    | counter x => cases c <;> first | exact rs_pure _ | exact rs_bind (rs_lift _) fun _ => rs_set_unit _ (.same _ rfl) | exact rs_ref (.same _ rfl)
    | gauge x => cases c <;> first | exact rs_pure _ | exact rs_bind (rs_lift _) fun _ => rs_set_unit _ (.same _ rfl) | exact rs_ref (.same _ rfl)
    | gaugeF x => cases c <;> first | exact rs_pure _ | exact rs_bind (rs_lift _) fun _ => rs_set_unit _ (.same _ rfl) | exact rs_ref (.same _ rfl)
    | health x => cases c <;> first | exact rs_pure _ | exact rs_set_unit _ (.same _ rfl)
    | sample x => exact rs_sampleCall env r x c ho
    | hist x => exact rs_histCall ..
    | ewma x => cases c <;> first | exact rs_pure _ | exact rs_bind (rs_lift _) fun _ => rs_set_unit _ (.same _ rfl) | exact rs_ref (.same _ rfl)
    | meter x => exact rs_meterCall ..
    | timer x => exact rs_timerCall ..

/-! ### Constructors -/

theorem WS.useNil {w w' : World F} (h : WS w w') : w'.useNil = w.useNil := by rw [h.eq]
theorem WS.shared {w w' : World F} (h : WS w w') : w'.shared = w.shared := by rw [h.eq]
theorem WS.meters {w w' : World F} (h : WS w w') : w'.meters = w.meters := by rw [h.eq]

theorem rs_if {x y : Act F α} (b : World F → Bool) (hb : ∀ w w', WS w w' → b w' = b w) (h : RS x x) (h' : RS y y) :
    RS (fun w => if b w then x w else y w) (fun w => if b w then x w else y w) := by
  refine ⟨fun w w' hw => ?_⟩
  simp only [hb w w' hw]
  split
  · exact h.rel w w' hw
  · exact h'.rel w w' hw

theorem rs_nil {f : Bool → Obj F} (hf : ∀ b, plain (f b) = true) : RS (fun w => alloc (f w.useNil) w) (fun w => alloc (f w.useNil) w) :=
  ⟨fun w w' hw => by rw [hw.useNil]; exact (rs_alloc (.same _ (hf _))).rel w w' hw⟩

theorem rs_newExp (env : Env F) (k : Int) (a : F) : RS (newExp env k a) (newExp env k a) := by
  refine rs_if (fun w => w.useNil) (fun _ _ h => h.useNil) (rs_alloc (.same _ rfl)) ?_
  rcases h : ExpDecaySample.new k a env.now with p | s
  · exact rs_fail p
  · exact rs_alloc (.exp (es_new h))

theorem rs_newHist (s : Ref) : RS (F := F) (newHist s) (newHist s) := by
  refine rs_if (fun w => w.useNil) (fun _ _ h => h.useNil) (rs_alloc (.same _ rfl)) ?_
  refine ⟨fun w w' hw => ?_⟩
  have h := hw.objs s
  generalize w.objs s = x at h
  generalize w'.objs s = x' at h
  rcases h with _ | h
  · exact (rs_fail _).rel w w' hw
  · rcases h with h | ⟨_, h⟩
    · exact (rs_alloc (.same (.hist (.std s)) rfl)).rel w w' hw
    · rename_i o
      clear h
      cases o <;> first | exact (rs_fail _).rel w w' hw | exact (rs_alloc (.same (.hist (.std s)) rfl)).rel w w' hw

theorem rs_newMeter (env : Env F) : RS (newMeter env) (newMeter env) :=
  rs_if (fun w => w.useNil) (fun _ _ h => h.useNil) (rs_alloc (.same _ rfl)) (rs_bind (rs_alloc (.same _ rfl)) fun _ => rs_bind (rs_add _) fun _ => rs_pure _)

theorem rs_newTimer (h m : Ref) : RS (F := F) (newTimer h m) (newTimer h m) := by
  refine rs_if (fun w => w.useNil) (fun _ _ h => h.useNil) (rs_alloc (.same _ rfl)) ?_
  refine ⟨fun w w' hw => ?_⟩
  have e1 := hw.objs h
  have e2 := hw.objs m
  generalize w.objs h = x at e1
  generalize w'.objs h = x' at e1
  generalize w.objs m = y at e2
  generalize w'.objs m = y' at e2
  have hf := (rs_fail (F := F) (α := Ref) .typeAssert).rel w w' hw
  have ha := (rs_alloc (F := F) (.same (.timer (.std h m)) rfl)).rel w w' hw
  rcases e1 with _ | e1
  · exact hf
  · rcases e2 with _ | e2
    · rcases e1 with e1 | ⟨_, e1⟩
      · exact hf
      · rename_i o
        clear e1
        cases o <;> exact hf
    · rcases e1 with e1 | ⟨_, e1⟩
      · exact hf
      · clear e1
        rcases e2 with e2 | ⟨_, e2⟩
        · rename_i o s s'
          cases o <;> exact hf
        · rename_i o o2
          clear e2
          cases o <;> cases o2 <;> first | exact hf | exact ha

theorem rs_construct (env : Env F) (c : NewOp F) : RS (construct env c) (construct env c) := by
  cases c with
  | counter => exact rs_nil (f := fun b => .counter (Counter.new b)) fun _ => rfl
  | gauge => exact rs_nil (f := fun b => .gauge (Gauge.new b)) fun _ => rfl
  | funcGauge f => exact rs_nil (f := fun b => .gauge (Gauge.newFunctional b f)) fun _ => rfl
  | gaugeF => exact rs_nil (f := fun b => .gaugeF (GaugeF.new b)) fun _ => rfl
  | funcGaugeF f => exact rs_nil (f := fun b => .gaugeF (GaugeF.newFunctional b f)) fun _ => rfl
  | health f => exact rs_nil (f := fun b => .health (Health.new b f)) fun _ => rfl
  | uniform k =>
    refine rs_if (fun w => w.useNil) (fun _ _ h => h.useNil) (rs_alloc (.same _ rfl)) ?_
    unfold UniformSample.new
    split
    · exact rs_fail _
    · exact rs_alloc (.same (.sample (.uniform ⟨0, k, []⟩)) (by simpa [plain] using ‹¬ k < 0›))
  | exp k a => exact rs_newExp env k a
  | sampleSnap n a => exact rs_if (fun w => w.shared a) (fun _ _ h => by rw [h.shared]) (rs_alloc (.same _ rfl)) (rs_bind (rs_newArr _ _) fun _ => rs_alloc (.same _ rfl))
  | hist s => exact rs_newHist s
  | ewma a => exact rs_nil (f := fun b => .ewma (Ewma.new b a)) fun _ => rfl
  | meter => exact rs_newMeter env
  | timer =>
    exact rs_if (fun w => w.useNil) (fun _ _ h => h.useNil) (rs_alloc (.same _ rfl))
      (rs_bind (rs_newExp ..) fun _ => rs_bind (rs_newHist _) fun _ => rs_bind (rs_newMeter _) fun _ => rs_newTimer ..)
  | customTimer h m => exact rs_newTimer h m

theorem rs_runAll {f : α → Act F Unit} (h : ∀ a, RS (f a) (f a)) : ∀ l, RS (runAll f l) (runAll f l)
  | [] => rs_pure _
  | a :: l => rs_bind (h a) fun _ => rs_runAll h l

theorem rs_tickMeters (env : Env F) : RS (tickMeters env) (tickMeters env) := by
  refine ⟨fun w w' hw => ?_⟩
  simp only [tickMeters, hw.meters]
  refine (rs_runAll (f := tickOne env) (fun r => rs_read (rs_pure _) (fun _ _ _ => rs_pure _) fun o _ => ?_) (env.order w.meters)).rel w w' hw
  cases o <;> first | exact rs_pure _ | exact rs_set _ (.same _ rfl)

/-! ### Registries -/

theorem rs_register (id : Nat) (name : Str) (v : Val F) : RS (register id name v) (register id name v) := by
  refine rs_bind (rs_getReg _) fun m => ?_
  split
  · exact rs_pure _
  · split
    · refine rs_read (rs_pure _) (fun _ _ _ => rs_pure _) fun o _ => ?_
      dsimp only
      split
      · exact rs_bind (rs_setReg _ _) fun _ => rs_pure _
      · exact rs_pure _
    · exact rs_pure _

theorem rs_getOrRegister (env : Env F) (id : Nat) (name : Str) (v : Val F) : RS (getOrRegister env id name v) (getOrRegister env id name v) := by
  refine rs_bind (rs_getReg _) fun m => ?_
  split
  · exact rs_pure _
  · cases v with
    | ctor c => exact rs_bind (rs_construct ..) fun _ => rs_bind (rs_register ..) fun _ => rs_pure _
    | otherFn => exact rs_pure _
    | badFn => exact rs_fail _
    | obj r => exact rs_bind (rs_register ..) fun _ => rs_pure _
    | other => exact rs_pure _

theorem rs_unregister (env : Env F) (id : Nat) (name : Str) : RS (unregister env id name) (unregister env id name) := by
  refine rs_bind (rs_bind (rs_getReg _) fun m => ?_) fun _ => rs_bind (rs_getReg _) fun _ => rs_setReg _ _
  split
  · exact rs_pure _
  · refine rs_read (rs_pure _) (fun _ _ _ => rs_pure _) fun o _ => ?_
    dsimp only
    split
    · exact rs_bind (rs_call ..) fun _ => rs_pure _
    · exact rs_pure _

theorem rs_regCall (env : Env F) : ∀ (g : Reg) (o : RegOp F), RS (regCall env g o) (regCall env g o)
  | .std id, .get name => rs_bind (rs_getReg _) fun m => by split <;> exact rs_pure _
  | .std id, .getOrRegister name v => rs_getOrRegister ..
  | .std id, .register name v => rs_register ..
  | .std id, .unregister name => rs_bind (rs_unregister ..) fun _ => rs_pure _
  | .std id, .unregisterAll => rs_bind (rs_bind (rs_getReg _) fun m => rs_runAll (fun _ => rs_unregister ..) _) fun _ => rs_pure _
  | .std id, .runHealthchecks =>
    rs_bind (rs_bind (rs_getReg _) fun m => rs_runAll (fun e => rs_read (rs_pure _) (fun _ _ _ => rs_pure _) fun o _ => by
      cases o <;> first | exact rs_pure _ | exact rs_bind (rs_call ..) fun _ => rs_pure _) _) fun _ => rs_pure _
  | .prefixed u p, .get name => rs_regCall env u _
  | .prefixed u p, .getOrRegister name v => rs_regCall env u _
  | .prefixed u p, .register name v => rs_regCall env u _
  | .prefixed u p, .unregister name => rs_regCall env u _
  | .prefixed u _, .unregisterAll => rs_regCall env u _
  | .prefixed u _, .runHealthchecks => rs_regCall env u _
  | .foreign, _ => rs_pure _

theorem rs_step (env : Env F) (o : Op F) : RS (step env o) (step env o) := by
  cases o with
  | setNil b => exact ⟨fun w w' h => ⟨⟨fun r => h.objs r, by simp only [step]; rw [h.eq]⟩, rfl⟩⟩
  | new c => exact rs_bind (rs_construct ..) fun _ => rs_pure _
  | call r c => exact rs_bind (rs_call ..) fun _ => rs_pure _
  | slice o =>
    refine rs_bind ?_ fun _ => rs_pure _
    cases o with
    | make l => exact rs_bind (rs_newArr _ _) fun _ => rs_pure _
    | set a i v =>
      refine ⟨fun w w' hw => ?_⟩
      simp only [sliceOp, hw.shared]
      split
      · exact ⟨⟨fun r => hw.objs r, by dsimp only; rw [hw.eq]⟩, rfl⟩
      · exact ⟨hw, rfl⟩
  | tick => exact rs_bind (rs_tickMeters _) fun _ => rs_pure _
  | reg g o => exact rs_bind (rs_regCall ..) fun _ => rs_pure _

theorem results_ws (l : List (Env F × Op F)) {w w' : World F} (h : WS w w') : results w' l = results w l := by
  induction l generalizing w w' with
  | nil => rfl
  | cons x l ih =>
    obtain ⟨h1, h2⟩ := (rs_step x.1 x.2).rel w w' h
    show (step x.1 x.2 w').2 :: _ = _
    rw [h2]
    exact congrArg _ (ih h1)

theorem run_ws (l : List (Env F × Op F)) {w w' : World F} (h : WS w w') : WS (w.run l) (w'.run l) := by
  induction l generalizing w w' with
  | nil => exact h
  | cons x l ih => exact ih ((rs_step x.1 x.2).rel w w' h).1

theorem ws_init : WS (World.init : World F) World.init := ⟨fun _ => .none, rfl⟩

/-- In a reachable state the heap of a sample has the capacity given by the reservoir size. -/
theorem reachable_exp (l : List (Env F × Op F)) (r : Ref) {s : ExpDecaySample F} (h : (World.init.run l : World F).objs r = some (.sample (.exp s))) : ES s s := by
  have := (run_ws l (ws_init (F := F))).objs r
  generalize (World.init.run l : World F).objs r = x at this h
  subst h
  rcases this with _ | h
  rcases h with h | ⟨_, h⟩
  · exact h
  · cases h

/-- A uniform sample holds at most as many values as its reservoir size says. -/
theorem reachable_length (l : List (Env F × Op F)) (r : Ref) {s : UniformSample} (h : (World.init.run l : World F).objs r = some (.sample (.uniform s))) : (s.values.length : Int) ≤ s.reservoirSize := by
  have := (run_ws l (ws_init (F := F))).objs r
  generalize (World.init.run l : World F).objs r = x at this h
  subst h
  rcases this with _ | h
  rcases h with h | ⟨_, h⟩
  simpa [plain] using h

theorem reachable_uniform (l : List (Env F × Op F)) (r : Ref) {s : UniformSample} (h : (World.init.run l : World F).objs r = some (.sample (.uniform s))) : 0 ≤ s.reservoirSize := by
  have := reachable_length l r h
  omega

theorem ws_refl (l : List (Env F × Op F)) : WS (World.init.run l : World F) (World.init.run l) := run_ws l ws_init

end GoMetrics.Stale
