import Verif.Spec.Net

/-! The buffered connection: what is sent is a prefix of what is written; all of it if the network works and the buffer is flushed. -/

set_option linter.unusedSectionVars false

namespace GoMetrics
open Spec

/-- `b` has been given the bytes `t` in all: if nothing failed they are in the connection or the buffer; in any case a prefix is in the connection. -/
structure Carries (b : BufWriter) (t : Str) : Prop where
  pre : b.conn.sent <+: t
  all : b.failed = false → b.conn.sent ++ b.buf = t
  room : b.failed = false → b.buf.length ≤ bufSize
  open_ : b.conn.closed = 0

theorem carries_flush (net : Net) {b : BufWriter} {t : Str} (h : Carries b t) : Carries (b.flush net) t ∧ ((b.flush net).failed = false → (b.flush net).buf = []) ∧ ((∀ n, net n = none) → (b.flush net).failed = b.failed) := by
  unfold BufWriter.flush
  split
  · rename_i hf; exact ⟨h, fun h2 => (Bool.noConfusion (hf.symm.trans h2)), fun _ => rfl⟩
  · rename_i hf
    replace hf : b.failed = false := by simpa using hf
    split
    · rename_i hb; exact ⟨h, fun _ => hb, fun _ => rfl⟩
    · unfold Conn.write
      split
      · rename_i c n hw
        split at hw
        · cases hw
          exact ⟨⟨by simp [← h.all hf], fun _ => by simpa using h.all hf, fun _ => by simp, h.open_⟩, fun _ => rfl, fun _ => hf.symm⟩
        · cases hw
      · rename_i c n hw
        split at hw
        · cases hw
        · rename_i k hk
          cases hw
          refine ⟨⟨?_, fun h2 => Bool.noConfusion h2, fun h2 => Bool.noConfusion h2, h.open_⟩, fun h2 => Bool.noConfusion h2, fun hn => ?_⟩
          · rw [← h.all hf]; exact (List.prefix_append_right_inj _).2 (List.take_prefix _ _)
          · rw [hn] at hk; cases hk

theorem carries_append {b : BufWriter} {t : Str} (h : Carries b t) (p : Str) (hb : b.failed = true ∨ p = []) : Carries b (t ++ p) := by
  rcases hb with hb | rfl
  · exact ⟨h.pre.trans (List.prefix_append _ _), fun h2 => Bool.noConfusion (hb.symm.trans h2), fun h2 => Bool.noConfusion (hb.symm.trans h2), h.open_⟩
  · simpa using h

/-- The last iteration: what is left fits into the buffer. -/
theorem writeLoop_fits (net : Net) (n : Nat) (b : BufWriter) {t p : Str} (h : Carries b t) (hp : b.failed = false → p.length ≤ bufSize - b.buf.length) : Carries (b.writeLoop net (n + 1) p) (t ++ p) ∧
    ((∀ n, net n = none) → (b.writeLoop net (n + 1) p).failed = b.failed) := by
  unfold BufWriter.writeLoop
  split
  · rename_i hf; exact ⟨carries_append h p (.inl hf), fun _ => rfl⟩
  · rename_i hf
    replace hf : b.failed = false := by simpa using hf
    rw [if_pos (hp hf)]
    refine ⟨⟨h.pre.trans (List.prefix_append _ _), fun _ => by simp [← h.all hf], fun _ => ?_, h.open_⟩, fun _ => rfl⟩
    have := hp hf
    have := h.room hf
    simp only [List.length_append]
    omega

/-- The last two iterations: the buffer is empty. -/
theorem writeLoop_direct (net : Net) (n : Nat) (b : BufWriter) {t p : Str} (h : Carries b t) (hb : b.failed = false → b.buf = []) : Carries (b.writeLoop net (n + 2) p) (t ++ p) ∧
    ((∀ n, net n = none) → (b.writeLoop net (n + 2) p).failed = b.failed) := by
  unfold BufWriter.writeLoop
  split
  · rename_i hf; exact ⟨carries_append h p (.inl hf), fun _ => rfl⟩
  · rename_i hf
    replace hf : b.failed = false := by simpa using hf
    have hsent : b.conn.sent = t := by have := h.all hf; rwa [hb hf, List.append_nil] at this
    split
    · rename_i hfit
      refine ⟨⟨h.pre.trans (List.prefix_append _ _), fun _ => by simp [← h.all hf], fun _ => ?_, h.open_⟩, fun _ => rfl⟩
      simp only [hb hf, List.nil_append, List.length_nil] at hfit ⊢
      omega
    · rw [if_pos (hb hf)]
      unfold Conn.write
      cases hk : net b.conn.writes with
      | none =>
        have := writeLoop_fits net n { conn := { b.conn with sent := b.conn.sent ++ p, writes := b.conn.writes + 1 }, buf := [], failed := false } (t := t ++ p) (p := p.drop p.length)
          ⟨by simp [hsent], fun _ => by simp [hsent], fun _ => by simp, h.open_⟩ (fun _ => by simp)
        simp only [List.drop_length, List.append_nil] at this ⊢
        exact ⟨this.1, fun hn => (this.2 hn).trans hf.symm⟩
      | some k =>
        have := writeLoop_fits net n { conn := { b.conn with sent := b.conn.sent ++ p.take k, writes := b.conn.writes + 1 }, buf := [], failed := true } (t := t ++ p.take k) (p := p.drop (min k p.length))
          ⟨by simp [hsent], fun h2 => Bool.noConfusion h2, fun h2 => Bool.noConfusion h2, h.open_⟩ (fun h2 => Bool.noConfusion h2)
        refine ⟨?_, fun hn => ?_⟩
        · have e : t ++ p.take k ++ p.drop (min k p.length) = t ++ p := by
            rw [List.append_assoc]
            congr 1
            rcases le_total k p.length with hle | hle
            · rw [min_eq_left hle, List.take_append_drop]
            · rw [min_eq_right hle, List.take_of_length_le hle, List.drop_length, List.append_nil]
          rw [e] at this
          exact this.1
        · rw [hn] at hk; cases hk

theorem carries_write (net : Net) {b : BufWriter} {t : Str} (h : Carries b t) (p : Str) : Carries (b.write net p) (t ++ p) ∧ ((∀ n, net n = none) → (b.write net p).failed = b.failed) := by
  by_cases hb : b.failed = false ∧ b.buf ≠ [] ∧ ¬ p.length ≤ bufSize - b.buf.length
  · obtain ⟨hf, hne, hbig⟩ := hb
    unfold BufWriter.write BufWriter.writeLoop
    rw [if_neg (by simp [hf]), if_neg hbig, if_neg hne]
    dsimp only
    have hroom := h.room hf
    have h1 : Carries { b with buf := b.buf ++ p.take (bufSize - b.buf.length) } (t ++ p.take (bufSize - b.buf.length)) :=
      ⟨h.pre.trans (List.prefix_append _ _), fun _ => by simp [← h.all hf], fun _ => by simp only [List.length_append, List.length_take]; omega, h.open_⟩
    have h2 := carries_flush net h1
    have h3 := writeLoop_direct net 0 _ h2.1 (p := p.drop (bufSize - b.buf.length)) h2.2.1
    rw [List.append_assoc, List.take_append_drop] at h3
    exact ⟨h3.1, fun hn => (h3.2 hn).trans (h2.2.2 hn)⟩
  · by_cases hf : b.failed = false
    · by_cases hne : b.buf = []
      · exact writeLoop_direct net 1 b h fun _ => hne
      · exact writeLoop_fits net 2 b h fun _ => by by_contra hc; exact hb ⟨hf, hne, hc⟩
    · exact writeLoop_fits net 2 b h fun h2 => absurd h2 hf

variable {F : Type} [GoFloat F] [GoSqrt F] [GoExp F]

theorem textOfEvents_append (render : List (Piece (Field F)) → Str) (a b : List (Event F)) : textOfEvents render (a ++ b) = textOfEvents render a ++ textOfEvents render b := by
  induction a with
  | nil => rfl
  | cons e a ih => cases e <;> simp [textOfEvents, ih]

theorem carries_put (net : Net) (render : List (Piece (Field F)) → Str) {b : BufWriter} {evs : List (Event F)} (h : Carries b (textOfEvents render evs)) (ev : Event F) :
    Carries (putEvent net render b ev) (textOfEvents render (evs ++ [ev])) ∧ ((∀ n, net n = none) → (putEvent net render b ev).failed = b.failed) := by
  rw [textOfEvents_append]
  cases ev with
  | print l => simpa [textOfEvents, putEvent] using carries_write net h (render l)
  | count s k v => exact ⟨by simpa [textOfEvents, putEvent] using h, fun _ => rfl⟩
  | value s k v => exact ⟨by simpa [textOfEvents, putEvent] using h, fun _ => rfl⟩

/-- The statements over the network do what the statements over a perfect writer do. -/
theorem netStmts_sim (env : Env F) (net : Net) (render : List (Piece (Field F)) → Str) (name : Str) (x : Ref) (ps : List F) (ss : List (Stmt F)) : ∀ (w : World F) (b : BufWriter) (evs : List (Event F)),
    Carries b (textOfEvents render evs) → ∃ w' b' evs' res, netStmts env net render name x ps ss (w, b) = ((w', b'), res) ∧ runStmts env name x ps ss (w, evs) = ((w', evs'), res) ∧
      Carries b' (textOfEvents render evs') ∧ ((∀ n, net n = none) → b'.failed = b.failed) := by
  induction ss with
  | nil => intro w b evs h; exact ⟨w, b, evs, none, rfl, rfl, h, fun _ => rfl⟩
  | cons s ss ih =>
    intro w b evs h
    rcases hx : s.exec env name x ps w with ⟨w1, res⟩
    cases res with
    | error p => exact ⟨w1, b, evs, some p, by simp only [netStmts, hx], by simp only [runStmts, hx], h, fun _ => rfl⟩
    | ok ev =>
      have hp := carries_put net render h ev
      obtain ⟨w', b', evs', res, h1, h2, h3, h4⟩ := ih w1 (putEvent net render b ev) (evs ++ [ev]) hp.1
      exact ⟨w', b', evs', res, by simp only [netStmts, hx, h1], by simp only [runStmts, hx, h2], h3, fun hn => (h4 hn).trans (hp.2 hn)⟩

/-- After a metric without panic: everything is in the connection (if nothing failed). -/
structure Flushed (net : Net) (b : BufWriter) (t : Str) : Prop where
  carries : Carries b t
  sent : (∀ n, net n = none) → b.failed = false ∧ b.conn.sent = t

theorem netMetric_sim (env : Env F) (net : Net) (render : List (Piece (Field F)) → Str) (sw : Obj F → Option (Case F)) (name : Str) (r : Ref) (w : World F) (b : BufWriter) (evs : List (Event F))
    (h : Flushed net b (textOfEvents render evs)) : ∃ w' b' evs' res, netMetric env net render sw name r (w, b) = ((w', b'), res) ∧ exportMetric env sw name r (w, evs) = ((w', evs'), res) ∧
      Carries b' (textOfEvents render evs') ∧ evs <+: evs' ∧ (res = none → Flushed net b' (textOfEvents render evs')) := by
  have hflush : ∀ {b : BufWriter} {t : Str}, Carries b t → ((∀ n, net n = none) → b.failed = false) → Flushed net (b.flush net) t := by
    intro b t hc hf
    have := carries_flush net hc
    refine ⟨this.1, fun hn => ?_⟩
    have hff : (b.flush net).failed = false := (this.2.2 hn).trans (hf hn)
    refine ⟨hff, ?_⟩
    have h2 := this.1.all hff
    rwa [this.2.1 hff, List.append_nil] at h2
  have hmono : ∀ (x : Ref) (ps : List F) (ss : List (Stmt F)) (w : World F) (evs : List (Event F)), evs <+: (runStmts env name x ps ss (w, evs)).1.2 := by
    intro x ps ss
    induction ss with
    | nil => intro w evs; exact List.prefix_refl _
    | cons s ss ih =>
      intro w evs
      simp only [runStmts]
      rcases s.exec env name x ps w with ⟨w1, res⟩
      cases res with
      | error p => exact List.prefix_refl _
      | ok ev => exact (List.prefix_append _ _).trans (ih w1 _)
  unfold netMetric exportMetric
  cases ho : w.objs r with
  | none => exact ⟨w, _, evs, none, rfl, rfl, (carries_flush net h.carries).1, List.prefix_refl _, fun _ => hflush h.carries fun hn => (h.sent hn).1⟩
  | some o =>
    simp only [Option.bind_some]
    cases hs : sw o with
    | none => exact ⟨w, _, evs, none, rfl, rfl, (carries_flush net h.carries).1, List.prefix_refl _, fun _ => hflush h.carries fun hn => (h.sent hn).1⟩
    | some c =>
      simp only [runCase]
      rcases hp : c.prepare env r w with ⟨w1, res⟩
      cases res with
      | error p => exact ⟨w1, b, evs, some p, rfl, rfl, h.carries, List.prefix_refl _, fun h2 => by cases h2⟩
      | ok xp =>
        obtain ⟨x, ps⟩ := xp
        obtain ⟨w', b', evs', res, h1, h2, h3, h4⟩ := netStmts_sim env net render name x ps c.body w1 b evs h.carries
        have hm := hmono x ps c.body w1 evs
        rw [h2] at hm
        cases res with
        | some p => exact ⟨w', b', evs', some p, by simp only [h1], h2, h3, hm, fun h => by cases h⟩
        | none => exact ⟨w', b'.flush net, evs', none, by simp only [h1], h2, (carries_flush net h3).1, hm, fun _ => hflush h3 fun hn => (h4 hn).trans (h.sent hn).1⟩

theorem netVisit_sim (env : Env F) (net : Net) (render : List (Piece (Field F)) → Str) (sw : Obj F → Option (Case F)) (l : List (Str × Ref)) : ∀ (w : World F) (b : BufWriter) (evs : List (Event F)),
    Flushed net b (textOfEvents render evs) → ∃ w' b' evs' res, visit (netMetric env net render sw) l (w, b) = ((w', b'), res) ∧ visit (exportMetric env sw) l (w, evs) = ((w', evs'), res) ∧
      Carries b' (textOfEvents render evs') ∧ (res = .ok () → Flushed net b' (textOfEvents render evs')) := by
  induction l with
  | nil => intro w b evs h; exact ⟨w, b, evs, .ok (), rfl, rfl, h.carries, fun _ => h⟩
  | cons e l ih =>
    intro w b evs h
    obtain ⟨w1, b1, evs1, res, h1, h2, h3, -, h4⟩ := netMetric_sim env net render sw e.1 e.2 w b evs h
    cases res with
    | some p => exact ⟨w1, b1, evs1, .error p, by simp only [visit, h1], by simp only [visit, h2], h3, fun h => by cases h⟩
    | none =>
      obtain ⟨w', b', evs', res, h5, h6, h7, h8⟩ := ih w1 b1 evs1 (h4 rfl)
      exact ⟨w', b', evs', res, by simp only [visit, h1, h5], by simp only [visit, h2, h6], h7, h8⟩

theorem visit_append {U : Type} (f : Callback F U) (a b : List (Str × Ref)) (x : World F × U) : visit f (a ++ b) x = match visit f a x with
    | (y, .ok _) => visit f b y
    | (y, .error p) => (y, .error p) := by
  induction a generalizing x with
  | nil => rfl
  | cons e a ih =>
    simp only [List.cons_append, visit]
    rcases f e.1 e.2 x with ⟨y, r⟩
    cases r with
    | none => exact ih y
    | some p => rfl

theorem conn_write_mono (net : Net) (c : Conn) (p : Str) : c.sent <+: (c.write net p).1.sent := by
  unfold Conn.write
  split <;> exact List.prefix_append _ _

theorem flush_mono (net : Net) (b : BufWriter) : b.conn.sent <+: (b.flush net).conn.sent := by
  unfold BufWriter.flush
  split
  · exact List.prefix_refl _
  · split
    · exact List.prefix_refl _
    · have := conn_write_mono net b.conn b.buf
      split <;> rename_i h <;> rw [h] at this <;> exact this

theorem writeLoop_mono (net : Net) (n : Nat) : ∀ (b : BufWriter) (p : Str), b.conn.sent <+: (b.writeLoop net n p).conn.sent := by
  induction n with
  | zero => intro b p; exact List.prefix_refl _
  | succ n ih =>
    intro b p
    unfold BufWriter.writeLoop
    split
    · exact List.prefix_refl _
    · split
      · exact List.prefix_refl _
      · split
        · have hm := conn_write_mono net b.conn p
          rcases hw : b.conn.write net p with ⟨c, k, e⟩
          rw [hw] at hm
          exact hm.trans (ih ⟨c, [], e⟩ _)
        · exact (flush_mono net ⟨b.conn, b.buf ++ p.take _, b.failed⟩).trans (ih _ _)

theorem putEvent_mono (net : Net) (render : List (Piece (Field F)) → Str) (b : BufWriter) (ev : Event F) : b.conn.sent <+: (putEvent net render b ev).conn.sent := by
  cases ev with
  | print l => exact writeLoop_mono net 3 b _
  | _ => exact List.prefix_refl _

theorem netStmts_mono (env : Env F) (net : Net) (render : List (Piece (Field F)) → Str) (name : Str) (x : Ref) (ps : List F) (ss : List (Stmt F)) : ∀ (w : World F) (b : BufWriter),
    b.conn.sent <+: (netStmts env net render name x ps ss (w, b)).1.2.conn.sent := by
  induction ss with
  | nil => intro w b; exact List.prefix_refl _
  | cons s ss ih =>
    intro w b
    simp only [netStmts]
    rcases s.exec env name x ps w with ⟨w1, res⟩
    cases res with
    | error p => exact List.prefix_refl _
    | ok ev => exact (putEvent_mono net render b ev).trans (ih w1 _)

theorem netMetric_mono (env : Env F) (net : Net) (render : List (Piece (Field F)) → Str) (sw : Obj F → Option (Case F)) (name : Str) (r : Ref) (w : World F) (b : BufWriter) :
    b.conn.sent <+: (netMetric env net render sw name r (w, b)).1.2.conn.sent := by
  unfold netMetric
  dsimp only
  split
  · rename_i c hc
    split
    · rename_i w1 x ps hp
      have := netStmts_mono env net render name x ps c.body w1 b
      split
      · rename_i w2 b2 hn; rw [hn] at this; exact this.trans (flush_mono net b2)
      · rename_i y p hn; rw [hn] at this; exact this
    · exact List.prefix_refl _
  · exact flush_mono net b

theorem netVisit_mono (env : Env F) (net : Net) (render : List (Piece (Field F)) → Str) (sw : Obj F → Option (Case F)) (l : List (Str × Ref)) : ∀ (w : World F) (b : BufWriter),
    b.conn.sent <+: (visit (netMetric env net render sw) l (w, b)).1.2.conn.sent := by
  induction l with
  | nil => intro w b; exact List.prefix_refl _
  | cons e l ih =>
    intro w b
    have h := netMetric_mono env net render sw e.1 e.2 w b
    simp only [visit]
    rcases hn : netMetric env net render sw e.1 e.2 (w, b) with ⟨⟨w1, b1⟩, res⟩
    rw [hn] at h
    cases res with
    | some p => exact h
    | none => exact h.trans (ih w1 b1)

theorem netEach_sim (env : Env F) (net : Net) (render : List (Piece (Field F)) → Str) (sw : Obj F → Option (Case F)) (r : Reg) (w : World F) : ∃ w' b evs res,
    each env r (netMetric env net render sw) (w, {}) = ((w', b), res) ∧ each env r (exportMetric env sw) (w, []) = ((w', evs), res) ∧ Carries b (textOfEvents render evs) ∧
      (res = .ok () → Flushed net b (textOfEvents render evs)) := by
  have h0 : Flushed net {} (textOfEvents render []) := ⟨⟨List.prefix_refl _, fun _ => rfl, fun _ => by simp, rfl⟩, fun _ => ⟨rfl, rfl⟩⟩
  unfold each
  dsimp only
  rcases eachList env r w with ⟨w1, res⟩
  cases res with
  | error p => exact ⟨w1, {}, [], .error p, rfl, rfl, h0.carries, fun h => by cases h⟩
  | ok o =>
    cases o with
    | none => exact ⟨w1, {}, [], .ok (), rfl, rfl, h0.carries, fun _ => h0⟩
    | some l => exact netVisit_sim env net render sw l w1 {} [] h0

end GoMetrics
