import Verif.Model.BufWriter
import Verif.Props.BufReader

/-!
# Writers that keep bytes back

What a writer takes need not have left: it may keep it back until it is flushed.  The library flushes where it has to.
-/

namespace Bip324

variable {P : Prims} {prof : Profile} {σ τ : Type} {fuel : Nat}

/-! ## Specification -/

/-- The bytes that a call of `write` with this answer has taken. -/
def takenBytes (b : Bytes) : Except ErrorKind Nat → Bytes
  | .ok n => b.take n
  | .error _ => []

/-- A transport whose writer may keep bytes back: of the bytes it took, those in `passed` have left and those in `held` have
not.  A flush that succeeds leaves none behind. -/
structure Conn.Buffers (W : Conn τ) (passed held : τ → Bytes) : Prop where
  read : ∀ {s n s' x}, W.read s n = some (s', x) → passed s' = passed s ∧ held s' = held s
  write : ∀ {s b s' x}, W.write s b = some (s', x) → passed s <+: passed s' ∧
    passed s' ++ held s' = passed s ++ held s ++ takenBytes b x
  flush : ∀ {s s' x}, W.flush s = some (s', x) → passed s <+: passed s' ∧ passed s' ++ held s' = passed s ++ held s ∧
    (x = .ok () → held s' = [])

/-- The same for one that can be polled. -/
structure PollConn.Buffers (W : PollConn τ) (passed held : τ → Bytes) : Prop where
  conn : W.toConn.Buffers passed held
  poll : ∀ {s n s' x}, W.pollRead s n = (s', x) → passed s' = passed s ∧ held s' = held s

/-- The same transport with a peer that says nothing as long as bytes are kept back: a read does not return. -/
def Conn.strict (W : Conn τ) (held : τ → Bytes) : Conn τ :=
  { W with read := fun s n => if held s = [] then W.read s n else none }

/-- Likewise; a poll is pending. -/
def PollConn.strict (W : PollConn τ) (held : τ → Bytes) : PollConn τ where
  toConn := W.toConn.strict held
  pollRead s n := if held s = [] then W.pollRead s n else (s, .pending)

/-- What has been taken since `r0` has left, or is kept back behind what was kept back before, in the order it was taken. -/
def Since (passed held : τ → Bytes) (r0 r : ConnRun τ) : Prop :=
  ∃ new, r.sent = r0.sent ++ new ∧ passed r.net ++ held r.net = passed r0.net ++ held r0.net ++ new ∧
    passed r0.net <+: passed r.net

/-! ## Nothing is lost -/

section
variable {W : Conn τ} {passed held : τ → Bytes}

theorem Since.refl (r : ConnRun τ) : Since passed held r r := ⟨[], by simp, by simp, List.prefix_rfl⟩

theorem Conn.Buffers.preserves (h : W.Buffers passed held) (r0 : ConnRun τ) : W.Preserves (Since passed held r0) where
  read := by
    rintro r n r' x - ⟨new, h1, h2, h3⟩ he
    unfold Conn.readRun at he
    split at he
    · simp at he
    all_goals
      rename_i hr
      simp only [Option.some.injEq, Prod.mk.injEq] at he
      obtain ⟨rfl, -⟩ := he
      obtain ⟨a, b⟩ := h.read hr
      exact ⟨new, h1, by simpa only [a, b] using h2, by simpa only [a] using h3⟩
  write := by
    rintro r b r' x ⟨new, h1, h2, h3⟩ he
    unfold Conn.writeRun at he
    split at he
    · simp at he
    all_goals
      rename_i m hr
      simp only [Option.some.injEq, Prod.mk.injEq] at he
      obtain ⟨rfl, -⟩ := he
      obtain ⟨c, d⟩ := h.write hr
    · exact ⟨new ++ b.take m, by simp [h1], by simp only [d, h2, takenBytes, List.append_assoc], h3.trans c⟩
    · exact ⟨new, h1, by simpa only [d, takenBytes, List.append_nil] using h2, h3.trans c⟩
  flush := by
    rintro r r' x ⟨new, h1, h2, h3⟩ he
    unfold Conn.flushRun at he
    split at he
    · simp at he
    · rename_i hr
      simp only [Option.some.injEq, Prod.mk.injEq] at he
      obtain ⟨rfl, -⟩ := he
      obtain ⟨c, d, -⟩ := h.flush hr
      exact ⟨new, h1, d.trans h2, h3.trans c⟩

theorem PollConn.Buffers.pollKeeps {W : PollConn τ} (h : W.Buffers passed held) (r0 : ConnRun τ) :
    PollKeeps W (Since passed held r0) := by
  rintro r n r' x - ⟨new, h1, h2, h3⟩ he
  unfold PollConn.pollRun at he
  split at he
  all_goals
    rename_i hr
    simp only [Prod.mk.injEq] at he
    obtain ⟨rfl, -⟩ := he
    obtain ⟨a, b⟩ := h.poll hr
    exact ⟨new, h1, by simpa only [a, b] using h2, by simpa only [a] using h3⟩

/-- A sent message has left. -/
theorem Conn.Buffers.send_ok (h : W.Buffers passed held) {retry : Bool} {r r' : ConnRun τ} {b : Bytes}
    (he : W.send fuel retry r b = some (r', .ok ())) : held r'.net = [] := by
  unfold Conn.send at he
  split at he
  · simp at he
  · simp at he
  · unfold Conn.flushRun at he
    split at he
    · simp at he
    · rename_i hr
      simp only [Option.some.injEq, Prod.mk.injEq] at he
      obtain ⟨rfl, rfl⟩ := he
      exact (h.flush hr).2.2 rfl

/-! ## Nothing is read while bytes are kept back -/

/-- Two readers that do the same as long as `J` holds, and keep it. -/
def ReadAgree {X : Type} (rd rd' : X → Nat → Option (X × ReadRes)) (J : X → Prop) : Prop :=
  ∀ s n, J s → rd' s n = rd s n ∧ ∀ s' x, rd s n = some (s', x) → J s'

theorem readExactN_agree {X : Type} {rd rd' : X → Nat → Option (X × ReadRes)} {J : X → Prop} (h : ReadAgree rd rd' J)
    (retry : Bool) : ∀ {fuel s need acc}, J s → readExactN fuel rd' retry s need acc = readExactN fuel rd retry s need acc ∧
      ∀ s' x, readExactN fuel rd retry s need acc = some (s', x) → J s' := by
  intro fuel
  induction fuel with
  | zero => intro s need acc hs; simp [readExactN]
  | succ fuel ih =>
    intro s need acc hs
    unfold readExactN
    obtain ⟨h1, h2⟩ := h s need hs
    rw [h1]
    cases hr : rd s need with
    | none => grind
    | some z =>
      obtain ⟨s1, y⟩ := z
      have h3 := h2 _ _ hr
      have h4 := fun need acc => ih (s := s1) (need := need) (acc := acc) h3
      grind

/-- The condition that nothing is kept back. -/
def NoneHeld (held : τ → Bytes) (r : ConnRun τ) : Prop := held r.net = []

theorem Conn.Buffers.readAgree (h : W.Buffers passed held) :
    ReadAgree W.readRun (W.strict held).readRun (NoneHeld held) := by
  intro r n hr
  unfold NoneHeld at hr
  constructor
  · simp [Conn.readRun, Conn.strict, hr]
  · intro r' x he
    unfold Conn.readRun at he
    split at he
    · simp at he
    all_goals
      rename_i hr'
      simp only [Option.some.injEq, Prod.mk.injEq] at he
      obtain ⟨rfl, -⟩ := he
      exact (h.read hr').2.trans hr

/-- The session reader of an API looks at the transport only through its reads. -/
def ApiN.Agrees (A : ApiN) : Prop :=
  ∀ {S : Type} {rd rd' : S → Nat → Option (S × ReadRes)} {J : S → Prop}, ReadAgree rd rd' J →
    ReadAgree (A.read rd) (A.read rd') (fun s => J s.2)

theorem syncN_agrees : syncN.Agrees := by
  intro S rd rd' J h s n hs
  obtain ⟨h1, h2⟩ := h s.2 n hs
  simp only [syncN, h1]
  grind

theorem asyncN_agrees : asyncN.Agrees := by
  intro S rd rd' J h s n hs
  obtain ⟨h1, h2⟩ := h s.2 n hs
  simp only [asyncN, h1]
  grind

theorem garbageLoopN_agree (h : W.Buffers passed held) : ∀ {fuel hs buf r}, NoneHeld held r →
    garbageLoopN fuel (W.strict held) hs buf r = garbageLoopN fuel W hs buf r ∧
      ∀ r' x, garbageLoopN fuel W hs buf r = some (r', x) → NoneHeld held r' := by
  intro fuel
  induction fuel with
  | zero => intro hs buf r _; simp [garbageLoopN]
  | succ fuel ih =>
    intro hs buf r hr
    unfold garbageLoopN
    obtain ⟨h1, h2⟩ := h.readAgree r 256 hr
    rw [h1]
    grind

theorem versionLoopN_agree {A : ApiN} (hA : A.Agrees) (h : W.Buffers passed held) : ∀ {fuel hs s}, NoneHeld held s.2 →
    versionLoopN fuel A (W.strict held) P prof hs s = versionLoopN fuel A W P prof hs s ∧
      ∀ r' x, versionLoopN fuel A W P prof hs s = some (r', x) → NoneHeld held r' := by
  intro fuel
  induction fuel with
  | zero => intro hs s _; simp [versionLoopN]
  | succ fuel ih =>
    intro hs s hr
    unfold versionLoopN
    have hk := hA h.readAgree
    have h1 := fun n => readExactN_agree hk A.retry (fuel := fuel) (s := s) (need := n) (acc := []) hr
    have h2 := fun s n hs => readExactN_agree hk A.retry (fuel := fuel) (s := s) (need := n) (acc := []) hs
    rw [(h1 NUM_LENGTH_BYTES).1]
    constructor
    · split
      · rfl
      · rfl
      · rename_i s1 l he
        have h3 := (h1 NUM_LENGTH_BYTES).2 _ _ he
        split
        · rfl
        · rfl
        · split
          · rfl
          · rw [(h2 _ _ h3).1]
            split
            · rfl
            · rfl
            · rename_i s2 p he2
              have h4 := (h2 _ _ h3).2 _ _ he2
              split
              · rfl
              · rfl
              · rfl
              · exact (ih h4).1
    · intro r' x he
      repeat' split at he
      all_goals grind

theorem strict_send (held : τ → Bytes) (retry : Bool) (r : ConnRun τ) (b : Bytes) :
    (W.strict held).send fuel retry r b = W.send fuel retry r b := by
  have h : ∀ fuel r b, (W.strict held).writeAll fuel retry r b = W.writeAll fuel retry r b := by
    intro fuel
    induction fuel with
    | zero => intro r b; simp [Conn.writeAll]
    | succ fuel ih =>
      intro r b
      cases b with
      | nil => simp [Conn.writeAll]
      | cons b bs =>
        simp only [Conn.writeAll, ih]
        rfl
  unfold Conn.send
  rw [h]
  rfl

theorem handshakeWithInitializedN_agree {A : ApiN} (hA : A.Agrees) (h : W.Buffers passed held) (hs : HsInitialized)
    (g : Option Bytes) (d : Option (List Bytes)) (r : ConnRun τ) :
    handshakeWithInitializedN fuel A (W.strict held) P prof hs g d r = handshakeWithInitializedN fuel A W P prof hs g d r ∧
      ∀ r' v, handshakeWithInitializedN fuel A W P prof hs g d r = some (r', .ok v) → NoneHeld held r' := by
  unfold handshakeWithInitializedN
  have h2 := fun r n hs => readExactN_agree h.readAgree A.retry (fuel := fuel) (s := r) (need := n) (acc := []) hs
  simp only [strict_send]
  have hsend := fun r b r' => @Conn.Buffers.send_ok _ fuel W passed held h A.retry r r' b
  constructor
  · split
    · rfl
    · rfl
    · split
      · rfl
      · rfl
      · rename_i r1 he1
        have j1 : NoneHeld held r1 := hsend _ _ _ he1
        rw [(h2 _ _ j1).1]
        split
        · rfl
        · rfl
        · rename_i r2 _ he2
          have j2 := (h2 _ _ j1).2 _ _ he2
          split
          · rfl
          · rfl
          · split
            · rfl
            · rfl
            · split
              · rfl
              · rfl
              · rename_i r3 he3
                have j3 : NoneHeld held r3 := hsend _ _ _ he3
                rw [(h2 _ _ j3).1]
                split
                · rfl
                · rfl
                · rename_i r4 _ he4
                  have j4 := (h2 _ _ j3).2 _ _ he4
                  rw [(garbageLoopN_agree h j4).1]
                  split
                  · rfl
                  · rfl
                  · rfl
                  · rename_i r5 _ _ _ he5
                    have j5 := (garbageLoopN_agree h j4).2 _ _ he5
                    exact (versionLoopN_agree hA h j5).1
  · intro r' v he
    have h3 := fun fuel hs buf r hr => @garbageLoopN_agree _ W passed held h fuel hs buf r hr
    have h4 := fun fuel hs s hr => @versionLoopN_agree P prof _ W passed held A hA h fuel hs s hr
    have hsend' : ∀ r b r', W.send fuel A.retry r b = some (r', .ok ()) → NoneHeld held r' := hsend
    repeat' split at he
    all_goals grind

theorem syncReadN_agree (h : W.Buffers passed held) (c : InboundCipher) {s : syncN.Sess × ConnRun τ} (hs : NoneHeld held s.2) :
    syncReadN fuel (W.strict held) P prof c s = syncReadN fuel W P prof c s ∧
      ∀ c' s' x, syncReadN fuel W P prof c s = some ((c', s'), x) → NoneHeld held s'.2 := by
  unfold syncReadN
  have hk := syncN_agrees h.readAgree
  have h2 := fun s n hs => readExactN_agree hk true (fuel := fuel) (s := s) (need := n) (acc := []) hs
  rw [(h2 _ _ hs).1]
  constructor
  · split
    · rfl
    · rfl
    · rename_i s1 _ he
      have j1 := (h2 _ _ hs).2 _ _ he
      split
      · rfl
      · rfl
      · rw [(h2 _ _ j1).1]
  · intro c' s' x he
    repeat' split at he
    all_goals grind

theorem writeN_agree (held : τ → Bytes) (f : Flavour) (c : OutboundCipher) (r : ConnRun τ) (q : Payload) :
    writeN fuel f (W.strict held) P prof c r q = writeN fuel f W P prof c r q := by
  unfold writeN
  simp only [strict_send]

theorem writeN_none (h : W.Buffers passed held) {f : Flavour} {c c' : OutboundCipher} {r r' : ConnRun τ} {q : Payload}
    (he : writeN fuel f W P prof c r q = some ((c', r'), .ok ())) : NoneHeld held r' := by
  unfold writeN at he
  have hsend := fun b r' => @Conn.Buffers.send_ok _ fuel W passed held h f.retry r r' b
  unfold NoneHeld
  repeat' split at he
  all_goals grind

end

section
variable {W : PollConn τ} {passed held : τ → Bytes}

theorem PollConn.Buffers.pollAgree (h : W.Buffers passed held) {r : ConnRun τ} (n : Nat) (hr : NoneHeld held r) :
    (W.strict held).pollRun r n = W.pollRun r n ∧ ∀ r' x, W.pollRun r n = (r', x) → NoneHeld held r' := by
  unfold NoneHeld at hr
  constructor
  · simp [PollConn.pollRun, PollConn.strict, hr]
  · intro r' x he
    unfold PollConn.pollRun at he
    split at he
    all_goals
      rename_i hr'
      simp only [Prod.mk.injEq] at he
      obtain ⟨rfl, -⟩ := he
      exact (h.poll hr').2.trans hr

theorem pollFillN_agree (h : W.Buffers passed held) : ∀ {fuel s buf n}, NoneHeld held s.2 →
    pollFillN fuel (W.strict held) s buf n = pollFillN fuel W s buf n ∧
      ∀ x, pollFillN fuel W s buf n = some x → NoneHeld held x.run := by
  intro fuel
  induction fuel with
  | zero => intro s buf n _; simp [pollFillN]
  | succ fuel ih =>
    intro s buf n hs
    unfold pollFillN sessPollN
    obtain ⟨h1, h2⟩ := h.pollAgree (buf.length - n) hs
    rw [h1]
    grind [FillN.run]

theorem pollPayloadN_agree (h : W.Buffers passed held) (c : InboundCipher) {s : (Bytes × Nat) × ConnRun τ} (buf : Bytes) (n : Nat)
    (hs : NoneHeld held s.2) :
    AsyncReaderN.pollPayload fuel (W.strict held) P prof c s buf n = AsyncReaderN.pollPayload fuel W P prof c s buf n ∧
      ∀ r' x, AsyncReaderN.pollPayload fuel W P prof c s buf n = some (r', x) → NoneHeld held r'.reader.2 := by
  unfold AsyncReaderN.pollPayload
  have h1 := pollFillN_agree h (fuel := fuel) (buf := buf) (n := n) hs
  rw [h1.1]
  refine ⟨rfl, fun r' x he => ?_⟩
  have h2 := h1.2
  grind [FillN.run]

theorem pollN_agree (h : W.Buffers passed held) {r : AsyncReaderN τ} (hs : NoneHeld held r.reader.2) :
    AsyncReaderN.poll fuel (W.strict held) P prof r = AsyncReaderN.poll fuel W P prof r ∧
      ∀ r' x, AsyncReaderN.poll fuel W P prof r = some (r', x) → NoneHeld held r'.reader.2 := by
  unfold AsyncReaderN.poll
  have h1 := fun buf n => pollFillN_agree h (fuel := fuel) (buf := buf) (n := n) hs
  have h2 := fun c s buf n hs => @pollPayloadN_agree P prof _ fuel W passed held h c s buf n hs
  constructor
  · split
    · rw [(h1 _ _).1]
      split
      · rfl
      · rfl
      · rfl
      · rename_i s buf n he
        have j : NoneHeld held s.2 := (h1 _ _).2 _ he
        split
        · rfl
        · rfl
        · exact (h2 _ _ _ _ j).1
    · exact (h2 _ _ _ _ hs).1
  · intro r' x he
    repeat' split at he
    all_goals grind [FillN.run]

end

end Bip324
