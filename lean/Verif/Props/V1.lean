import Verif.Props.Transcript

/-!
# C54: telling V1 peers apart, compared with BIP-324

BIP-324: a responder compares the bytes it receives with the first 16 bytes of a V1 `version` message, and sends
nothing before they differ; if all 16 agree, the connection is a V1 connection and the bytes are its beginning.
The code (`receive_key` and the I/O handshakes) sends its key and garbage first, reads 64 bytes and compares
four of them, in both roles.

Full claim: an incoming connection is taken for V1 exactly if it begins with the 16 bytes, and then nothing has been
sent.  Proved: every V1 peer is recognised.  False of the code: the other direction, and that nothing was sent.
-/

namespace Bip324

variable {P : Prims} {prof : Profile}

namespace Spec

/-- BIP-324 `V1_PREFIX`: the network magic and the command `version` padded to twelve bytes. -/
def v1Prefix (magic : Bytes) : Bytes :=
  magic ++ [0x76, 0x65, 0x72, 0x73, 0x69, 0x6f, 0x6e, 0x00, 0x00, 0x00, 0x00, 0x00]

/-- The stream begins like that of a V1 peer which opens a connection. -/
def LooksV1 (magic stream : Bytes) : Prop := v1Prefix magic <+: stream

end Spec

/-- C54, part that holds: a V1 peer that opens the connection with a `version` message (which has more than 64
bytes) is reported as such, in both roles and both APIs and whatever the segmentation. -/
theorem C54_recognised_partial {A : Api} (hA : A = syncApi ∨ A = asyncApi) (hP : Lawful P) {magic rng : Bytes}
    {role : Role} {g : Option Bytes} {d : Option (List Bytes)} {reader tail : Source} {k : ErrorKind}
    {writer : Sink}
    (hnew : Spec.UsableKey P prof rng)
    (hg : (g.getD []).length ≤ 4095) (hw : writer.Reliable A.retry) (hend : EndsWith A.retry tail k)
    (hm : magic.length = 4) {bs : Bytes} (hs : Streams false reader bs tail) (h64 : 64 ≤ bs.length)
    (hv1 : Spec.LooksV1 magic bs) :
    (handshake A P prof magic role rng g d reader writer).2.2 = .err (.internal .v1Protocol) := by
  obtain ⟨w', log, h, -⟩ := C48_v1_detected (d := d) hA hP hnew hg hw hend hm hs h64
    ((List.prefix_append _ _).trans hv1)
  rw [h]

/-- And on any transport, however it fails, it never gets a session with us. -/
theorem C54_no_session {A : Api} (hP : Lawful P) {magic rng : Bytes}
    {role : Role} {g : Option Bytes} {d : Option (List Bytes)} {reader : Source} {writer : Sink}
    (hm : magic.length = 4) (hv1 : Spec.LooksV1 magic reader.bytes) :
    ∀ x, (handshake A P prof magic role rng g d reader writer).2.2 ≠ .ok x :=
  (C48_v1_peer (w' := (handshake A P prof magic role rng g d reader writer).1)
    (log := (handshake A P prof magic role rng g d reader writer).2.1) hP hm
    ((List.prefix_append _ _).trans hv1) rfl).2

/-- C54, false of the code: by the time the peer is recognised our key and garbage have always been sent to it, at
least 64 bytes, also by a responder; so the connection cannot be continued with V1. -/
theorem C54_sent_counterexample {A : Api} (hA : A = syncApi ∨ A = asyncApi) (hP : Lawful P) {magic rng : Bytes}
    {role : Role} {g : Option Bytes} {d : Option (List Bytes)} {reader tail : Source} {k : ErrorKind}
    {writer : Sink}
    (hnew : Spec.UsableKey P prof rng)
    (hg : (g.getD []).length ≤ 4095) (hw : writer.Reliable A.retry) (hend : EndsWith A.retry tail k)
    (hm : magic.length = 4) {bs : Bytes} (hs : Streams false reader bs tail) (h64 : 64 ≤ bs.length)
    (hv1 : Spec.LooksV1 magic bs) :
    ∃ sent, (handshake A P prof magic role rng g d reader writer).1.out = writer.out ++ sent ∧
      sent = P.ellswift rng ++ g.getD [] ∧ 64 ≤ sent.length := by
  obtain ⟨w', log, h, ho⟩ := C48_v1_detected (d := d) hA hP hnew hg hw hend hm hs h64
    ((List.prefix_append _ _).trans hv1)
  refine ⟨_, by rw [h, ho], rfl, ?_⟩
  rw [List.length_append, hP.ellswift_length]
  omega

/-- C54, false of the code: public keys which BIP-324 accepts (they do not look like V1) are refused, namely those
that begin with the network magic. -/
theorem C54_false_alarm (hP : Lawful P) (h : HsSentKey) (key : Bytes) (hkey : h.magic <+: key)
    (hm : h.magic.length = 4) : h.receiveKey P key = .err .v1Protocol := by
  rcases C19_v1_iff hP h key with ⟨-, h⟩ | ⟨hn, -⟩
  · exact h
  · obtain ⟨t, rfl⟩ := hkey
    exact absurd (take_append_len _ _ hm.symm) hn

/-- Such keys exist for every network. -/
theorem C54_false_alarm_counterexample (hP : Lawful P) (h : HsSentKey) (hm : h.magic.length = 4) :
    ∃ key, key.length = 64 ∧ ¬ Spec.LooksV1 h.magic key ∧ h.receiveKey P key = .err .v1Protocol := by
  refine ⟨h.magic ++ zeros 60, by simp [hm, zeros], ?_, C54_false_alarm hP h _ (List.prefix_append _ _) hm⟩
  rintro ⟨t, ht⟩
  simp only [Spec.v1Prefix, List.append_assoc, List.append_cancel_left_eq] at ht
  have := congrArg List.head? ht
  simp [zeros, List.replicate] at this

/-- Nothing avoids such keys when the own key is made: if it begins with the magic, no peer running this code
accepts it. -/
theorem C54_own_key_refused {A : Api} (hA : A = syncApi ∨ A = asyncApi) (hP : Lawful P) {magic rngI rngR : Bytes}
    {role : Role} {g : Option Bytes} {d : Option (List Bytes)} {reader tail : Source} {k : ErrorKind}
    {writer : Sink}
    (hnew : Spec.UsableKey P prof rngI)
    (hg : (g.getD []).length ≤ 4095) (hw : writer.Reliable A.retry) (hend : EndsWith A.retry tail k)
    (hm : magic.length = 4) {more : Bytes} (hs : Streams false reader (P.ellswift rngR ++ more) tail)
    (hbad : magic <+: P.ellswift rngR) :
    (handshake A P prof magic role rngI g d reader writer).2.2 = .err (.internal .v1Protocol) := by
  obtain ⟨w', log, h, -⟩ := C48_v1_detected (d := d) hA hP hnew hg hw hend hm hs
    (by rw [List.length_append, hP.ellswift_length]; omega) (hbad.trans (List.prefix_append _ _))
  rw [h]

/-! ## Cases -/

/-- A responder and a V1 peer: hypotheses and conclusions. -/
example :
    Spec.UsableKey toy .debug (leBytes 32 77) ∧
    Spec.LooksV1 [1, 2, 3, 4] (Spec.v1Prefix [1, 2, 3, 4] ++ zeros 100) ∧
    (handshake syncApi toy .debug [1, 2, 3, 4] .responder (leBytes 32 77) (some [42]) none
      [.data (Spec.v1Prefix [1, 2, 3, 4] ++ zeros 100)] ⟨[], [], []⟩).2.2 matches .err (.internal .v1Protocol) ∧
    (handshake syncApi toy .debug [1, 2, 3, 4] .responder (leBytes 32 77) (some [42]) none
      [.data (Spec.v1Prefix [1, 2, 3, 4] ++ zeros 100)] ⟨[], [], []⟩).1.out
      = toy.ellswift (leBytes 32 77) ++ [42] :=
  ⟨by decide +kernel, List.prefix_append _ _, by decide +kernel, by decide +kernel⟩

/-- An honest key that begins with the magic: both sides are ready to start, and the handshake fails. -/
example :
    Spec.UsableKey toy .debug ([1, 2, 3, 4] ++ zeros 28) ∧
    [1, 2, 3, 4] <+: toy.ellswift ([1, 2, 3, 4] ++ zeros 28) ∧
    (handshake asyncApi toy .debug [1, 2, 3, 4] .initiator (leBytes 32 77) none none
      [.data (toy.ellswift ([1, 2, 3, 4] ++ zeros 28))] ⟨[], [], []⟩).2.2 matches .err (.internal .v1Protocol) :=
  ⟨by decide +kernel, ⟨zeros 60, by decide +kernel⟩, by decide +kernel⟩

end Bip324
