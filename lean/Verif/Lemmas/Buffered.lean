import Verif.Model.BufReader
import Verif.Lemmas.Segments

/-!
# Invariants of the transport, and the `BufReader`

Whatever every `read` (of at least one byte), `write` and `flush` of a transport keeps is kept by all the I/O code.  For a
`BufReader` this is: what the library has read, and then what is in the buffer, is what the transport has answered.
-/

namespace Bip324

variable {P : Prims} {prof : Profile} {σ : Type} {fuel : Nat}

/-- `I` is kept by every call that the library makes. -/
structure Conn.Preserves (N : Conn σ) (I : ConnRun σ → Prop) : Prop where
  read : ∀ {r n r' x}, 0 < n → I r → N.readRun r n = some (r', x) → I r'
  write : ∀ {r b r' x}, I r → N.writeRun r b = some (r', x) → I r'
  flush : ∀ {r r' x}, I r → N.flushRun r = some (r', x) → I r'

/-- `J` is kept by a reader. -/
def ReadKeeps {X : Type} (rd : X → Nat → Option (X × ReadRes)) (J : X → Prop) : Prop :=
  ∀ s n s' x, 0 < n → J s → rd s n = some (s', x) → J s'

theorem readExactN_keeps {X : Type} {rd : X → Nat → Option (X × ReadRes)} {J : X → Prop} (h : ReadKeeps rd J) (retry : Bool) :
    ∀ {fuel s need acc s' x}, J s → readExactN fuel rd retry s need acc = some (s', x) → J s' := by
  intro fuel
  induction fuel with
  | zero => intro s need acc s' x _ he; simp [readExactN] at he
  | succ fuel ih =>
    intro s need acc s' x hs he
    unfold readExactN at he
    have h' := h s need
    grind

theorem writeAllN_keeps {N : Conn σ} {I : ConnRun σ → Prop} (h : N.Preserves I) (retry : Bool) :
    ∀ {fuel r buf r' x}, I r → N.writeAll fuel retry r buf = some (r', x) → I r' := by
  intro fuel
  induction fuel with
  | zero => intro r buf r' x _ he; simp [Conn.writeAll] at he
  | succ fuel ih =>
    intro r buf r' x hr he
    unfold Conn.writeAll at he
    have h' := @h.write r buf
    grind

theorem sendN_keeps {N : Conn σ} {I : ConnRun σ → Prop} (h : N.Preserves I) {retry : Bool} {r r' : ConnRun σ} {buf : Bytes}
    {x : Except ErrorKind Unit} (hr : I r) (he : N.send fuel retry r buf = some (r', x)) : I r' := by
  unfold Conn.send at he
  have h1 := @writeAllN_keeps σ N I h retry fuel r buf
  have h2 := @h.flush
  grind

theorem garbageLoopN_keeps {N : Conn σ} {I : ConnRun σ → Prop} (h : N.Preserves I) :
    ∀ {fuel hs buf r r' x}, I r → garbageLoopN fuel N hs buf r = some (r', x) → I r' := by
  intro fuel
  induction fuel with
  | zero => intro hs buf r r' x _ he; simp [garbageLoopN] at he
  | succ fuel ih =>
    intro hs buf r r' x hr he
    unfold garbageLoopN at he
    have h' := @h.read r 256
    grind

/-- The session reader of an API does nothing else to the transport than reading. -/
def ApiN.Keeps (A : ApiN) : Prop :=
  ∀ {S : Type} {rd : S → Nat → Option (S × ReadRes)} {J : S → Prop}, ReadKeeps rd J →
    ReadKeeps (A.read rd) (fun s => J s.2)

theorem syncN_keeps : syncN.Keeps := by
  intro S rd J h s n s' x hn hs he
  have h' := h s.2 n
  simp only [syncN] at he
  grind

theorem asyncN_keeps : asyncN.Keeps := by
  intro S rd J h s n s' x hn hs he
  have h' := h s.2 n
  simp only [asyncN] at he
  grind

theorem versionLoopN_keeps {A : ApiN} (hA : A.Keeps) {N : Conn σ} {I : ConnRun σ → Prop} (h : N.Preserves I) :
    ∀ {fuel hs s r' x}, I s.2 → versionLoopN fuel A N P prof hs s = some (r', x) → I r' := by
  intro fuel
  induction fuel with
  | zero => intro hs s r' x _ he; simp [versionLoopN] at he
  | succ fuel ih =>
    intro hs s r' x hr he
    unfold versionLoopN at he
    have hk : ReadKeeps (A.read N.readRun) (fun s => I s.2) := hA (fun s n s' x => @h.read s n s' x)
    have h1 := @readExactN_keeps _ _ _ hk A.retry fuel
    repeat' split at he
    all_goals grind

theorem handshakeWithInitializedN_keeps {A : ApiN} (hA : A.Keeps) {N : Conn σ} {I : ConnRun σ → Prop} (h : N.Preserves I)
    {hs : HsInitialized} {g : Option Bytes} {d : Option (List Bytes)} {r r' : ConnRun σ}
    {x : Outcome ProtocolError (InboundCipher × OutboundCipher × A.Sess)} (hr : I r)
    (he : handshakeWithInitializedN fuel A N P prof hs g d r = some (r', x)) : I r' := by
  unfold handshakeWithInitializedN at he
  have hk : ReadKeeps N.readRun I := fun s n s' x => @h.read s n s' x
  have h1 := @readExactN_keeps _ _ _ hk A.retry fuel
  have h2 := @sendN_keeps _ fuel N I h A.retry
  have h3 := @garbageLoopN_keeps _ N I h fuel
  have h4 := @versionLoopN_keeps P prof _ A hA N I h fuel
  repeat' split at he
  all_goals grind

theorem handshakeN_keeps {A : ApiN} (hA : A.Keeps) {N : Conn σ} {I : ConnRun σ → Prop} (h : N.Preserves I)
    {magic rng : Bytes} {role : Role} {g : Option Bytes} {d : Option (List Bytes)} {r r' : ConnRun σ}
    {x : Outcome ProtocolError (InboundCipher × OutboundCipher × A.Sess)} (hr : I r)
    (he : handshakeN fuel A N P prof magic role rng g d r = some (r', x)) : I r' := by
  unfold handshakeN at he
  have h1 := @handshakeWithInitializedN_keeps P prof _ fuel A hA N I h
  grind

theorem syncReadN_keeps {N : Conn σ} {I : ConnRun σ → Prop} (h : N.Preserves I) {c c' : InboundCipher}
    {s s' : syncN.Sess × ConnRun σ} {x : Outcome ProtocolError Payload} (hs : I s.2)
    (he : syncReadN fuel N P prof c s = some ((c', s'), x)) : I s'.2 := by
  unfold syncReadN at he
  have hk : ReadKeeps (syncN.read N.readRun) (fun s => I s.2) := syncN_keeps (fun s n s' x => @h.read s n s' x)
  have h1 := @readExactN_keeps _ _ _ hk true fuel
  repeat' split at he
  all_goals grind

theorem writeN_keeps {f : Flavour} {N : Conn σ} {I : ConnRun σ → Prop} (h : N.Preserves I) {c c' : OutboundCipher}
    {r r' : ConnRun σ} {p : Payload} {x : Outcome ProtocolError Unit} (hr : I r)
    (he : writeN fuel f N P prof c r p = some ((c', r'), x)) : I r' := by
  unfold writeN at he
  have h2 := @sendN_keeps _ fuel N I h f.retry
  grind

/-- The same for `poll_read`. -/
def PollKeeps (N : PollConn σ) (I : ConnRun σ → Prop) : Prop :=
  ∀ {r n r' x}, 0 < n → I r → N.pollRun r n = (r', x) → I r'

theorem pollFillN_keeps {N : PollConn σ} {I : ConnRun σ → Prop} (h : PollKeeps N I) :
    ∀ {fuel s buf n x}, I s.2 → pollFillN fuel N s buf n = some x → I x.run := by
  intro fuel
  induction fuel with
  | zero => intro s buf n x _ he; simp [pollFillN] at he
  | succ fuel ih =>
    intro s buf n x hs he
    unfold pollFillN sessPollN at he
    have h' := @h s.2 (buf.length - n)
    grind [FillN.run]

theorem pollPayloadN_keeps {N : PollConn σ} {I : ConnRun σ → Prop} (h : PollKeeps N I) {c : InboundCipher}
    {s : (Bytes × Nat) × ConnRun σ} {buf : Bytes} {n : Nat} {r' : AsyncReaderN σ} {x : PollResult} (hs : I s.2)
    (he : AsyncReaderN.pollPayload fuel N P prof c s buf n = some (r', x)) : I r'.reader.2 := by
  unfold AsyncReaderN.pollPayload at he
  have h1 := @pollFillN_keeps _ N I h fuel s buf n
  grind [FillN.run]

theorem pollN_keeps {N : PollConn σ} {I : ConnRun σ → Prop} (h : PollKeeps N I) {r r' : AsyncReaderN σ} {x : PollResult}
    (hs : I r.reader.2) (he : AsyncReaderN.poll fuel N P prof r = some (r', x)) : I r'.reader.2 := by
  unfold AsyncReaderN.poll at he
  have h1 := @pollFillN_keeps _ N I h fuel r.reader
  have h2 := @pollPayloadN_keeps P prof _ fuel N I h
  grind [FillN.run]

end Bip324
