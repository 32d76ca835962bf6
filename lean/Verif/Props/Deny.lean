import Verif.Props.Resume
import Verif.Props.Reference
import Verif.Props.EndToEnd

/-!
# C94: what was said proves nothing to others

Everything a party sends is determined by what its peer knows.  Whoever shows a conversation, together with its own secret, could have
made up the other side of it.
-/

namespace Bip324

open Concrete

variable {P : Prims} {prof : Profile}

namespace Spec

/-- The bytes of a peer with the public key `theirKey`, from the first to the last, as the party with the secret `sk` in the role
`initiating` can write them without any secret of that peer: key, garbage, terminator, decoys, version packet and the messages `ms`. -/
def madeUp (P : Prims) (magic sk : Bytes) (initiating : Bool) (theirKey garbage : Bytes) (decoys : List Bytes)
    (ms : List (UInt8 × Bytes)) : Bytes :=
  let keys := (directions P magic (P.ellswift sk) theirKey sk initiating).2
  peerTranscript P keys theirKey garbage decoys (0, []) ++ packetStream P keys.1 keys.2.1 (decoys.length + 1) [] ms

end Spec

/-- C94: whatever an honest party sends in a conversation - blocking or not, shaped or not, under any schedule - its peer could have
written, given the messages and the public key. -/
theorem C94_made_up (hP : Lawful P) {magic : Bytes} {I R : Peer} (H : Honest P prof magic I R) :
    AllSenders P prof magic I R fun role all ms =>
      ((role.of I R).decoys.getD []).length + ms.length + 1 < 2 ^ 32 →
      all = Spec.madeUp P magic (role.peer.of I R).rng role.peer.initiating (P.ellswift (role.of I R).rng)
        ((role.of I R).garbage.getD []) ((role.of I R).decoys.getD []) (ms.map headed) := by
  obtain ⟨i, o, f, hat, -⟩ := honest_ofSent hP H
  refine all_senders hP f hat ?_
  intro role ms o' sent hS hz hn
  have hr : role.peer.peer = role := by cases role <;> rfl
  have hd := dirs_peer hP H role.peer
  rw [hr] at hd
  obtain ⟨hs, -⟩ := sent_stream hP hS (sessions_at hP H f role) (by omega)
  rw [hs, flight_transcript hP H role, hd]
  unfold Spec.madeUp Role.dirs Role.key
  rw [hr]

/-- C94: and what is made up is taken for genuine, also when there is no such peer: for any 64 bytes as its public key, any garbage,
decoys and messages, the handshake succeeds and the reads return the messages. -/
theorem C94_accepted (hP : Lawful P) {magic : Bytes} {role : Role} {me : Peer} (hme : Ready P prof me) {reader tail : Source}
    {k : ErrorKind} {writer : Sink} (hw : writer.Reliable true) (hend : EndsWith true tail k) {theirKey garbage rest : Bytes}
    {decoys : List Bytes} {ms : List (UInt8 × Bytes)} (hn : decoys.length + 1 + ms.length < 2 ^ 32)
    (hadm : Spec.Admissible magic (Spec.directions P magic (P.ellswift me.rng) theirKey me.rng role.initiating).2.2.2 theirKey garbage
      decoys (0, []))
    (hms : ∀ m ∈ ms, m.2.length ≤ 4000013)
    (hs : Streams false reader (Spec.madeUp P magic me.rng role.initiating theirKey garbage decoys ms ++ rest) tail) :
    ∃ p, SyncProtocol.new P prof magic role me.rng me.garbage me.decoys reader writer = .ok p ∧
      (p.reader.readMany P prof ms.length).2 = ms.map (fun m => .ok (delivered m)) ∧
      SyncStreams (p.reader.readMany P prof ms.length).1.reader rest tail := by
  unfold Spec.madeUp at hs
  simp only [List.append_assoc] at hs
  obtain ⟨w', log, i, o, s, h1, -, h3, -, h5⟩ := handshake_complete (prof := prof) syncAbs hP hme.key hme.garbage hme.decoys hw hend
    (by omega) hadm hs
  refine ⟨⟨⟨i, s⟩, ⟨o, w'⟩⟩, by unfold SyncProtocol.new; rw [h1], ?_⟩
  rw [packetStream_framed hP] at h5
  obtain ⟨r', xs, g1, g2, -, g4⟩ := C93_frames (prof := prof) hP hend _ (r := ⟨i, s⟩) h3.1 h3.2 (by simp; omega) (by simp; omega)
    (fun b hb => by
      obtain ⟨j, m, hm, rfl⟩ := mem_bodies hb
      have := hms m (List.mem_of_getElem? hm)
      rw [sealedPart_length hP]
      omega) h5
  rw [List.length_mapIdx] at g1
  rw [g1, readOn_unique hP g2 (readOn_all ms hms)]
  exact ⟨rfl, g4⟩

theorem judgeSession_stream (P : Prims) (kL kP : Bytes) (ms : List (UInt8 × Bytes)) : ∀ (n : Nat), (∀ m ∈ ms, m.2.length < 2 ^ 24) →
    Spec.JudgeSession (2 ^ 24 - 1) P kL kP n (Spec.packetStream P kL kP n [] ms) ms .waits := by
  induction ms with
  | nil => exact fun n _ => .waits (.inl (by simp [Spec.packetStream]))
  | cons m ms ih =>
    intro n h
    have := h m (by simp)
    exact .message (by omega) this (ih (n + 1) fun x hx => h x (by simp [hx]))

/-- C94, the asynchronous API: whatever the polls and cancellations, the messages are returned in order, and after enough polls all. -/
theorem C94_accepted_async (hP : Lawful P) {magic : Bytes} {role : Role} {me : Peer} (hme : Ready P prof me) {reader tail : Source}
    {k : ErrorKind} {writer : Sink} (hw : writer.Reliable false) (hend : EndsWith false tail k) (hq : tail.bytes = [])
    {theirKey garbage : Bytes} {decoys : List Bytes} {ms : List (UInt8 × Bytes)} (hn : decoys.length + 1 < 2 ^ 31)
    (hadm : Spec.Admissible magic (Spec.directions P magic (P.ellswift me.rng) theirKey me.rng role.initiating).2.2.2 theirKey garbage
      decoys (0, []))
    (hms : ∀ m ∈ ms, m.2.length < 2 ^ 24)
    (hs : Streams false reader (Spec.madeUp P magic me.rng role.initiating theirKey garbage decoys ms) tail) :
    ∃ p, AsyncProtocol.new P prof magic role me.rng me.garbage me.decoys reader writer = .ok p ∧
      ∀ es, es.length < 2 ^ 31 → payloads (p.reader.run P prof es).2 <+: ms.map delivered ∧
        (p.reader.reader.size + ms.length ≤ polls es → payloads (p.reader.run P prof es).2 = ms.map delivered) := by
  unfold Spec.madeUp at hs
  obtain ⟨w', log, i, o, s, h1, -, h3, -, h5⟩ := handshake_complete (prof := prof) asyncAbs hP hme.key hme.garbage hme.decoys hw hend
    (by omega) hadm hs
  refine ⟨⟨⟨i, s, .initReadingLength⟩, ⟨o, w'⟩⟩, by unfold AsyncProtocol.new; rw [h1], fun es hes => ?_⟩
  have hr := fresh_reads (r := ⟨i, s, .initReadingLength⟩) h3 rfl
  rw [show (⟨i, s, .initReadingLength⟩ : AsyncReader).reader = s from rfl, async_remaining h5, hq, List.append_nil] at hr
  obtain ⟨j, hj, k1, -, k3, -⟩ := C62_session_async (prof := prof) hP es hr (by omega) rfl (judgeSession_stream P _ _ ms _ hms)
  refine ⟨?_, fun h => ?_⟩
  · rw [k1, List.map_take]; exact List.take_prefix _ _
  · rw [k1, k3 h, List.take_length]

/-- What nobody has said: a responder makes up an initiator whose public key is 64 times the byte 5. -/
example :
    let bs := Spec.madeUp toy [1, 2, 3, 4] (leBytes 32 77) false (List.replicate 64 5) [9, 9] [[7]] [(0, [1, 2, 3]), (0x80, [])]
    (match SyncProtocol.new toy .debug [1, 2, 3, 4] .responder (leBytes 32 77) none none [.data bs] ⟨[], [], []⟩ with
      | .ok p => (p.reader.readMany toy .debug 3).2 ==
          [.ok (delivered (0, [1, 2, 3])), .ok (delivered (0x80, [])), .err (.fromIo .unexpectedEof)]
      | _ => false) = true := by decide +kernel

/-- C94 with the cryptography of the RFCs, BIP-324 and secp256k1. -/
theorem C94_real (enc : Bytes → Bytes) (henc : ∀ sk, (enc sk).length = 64) {magic : Bytes} {I R : Peer}
    (H : Honest (rfc (secpWith enc)) prof magic I R) :
    AllSenders (rfc (secpWith enc)) prof magic I R fun role all ms =>
      ((role.of I R).decoys.getD []).length + ms.length + 1 < 2 ^ 32 →
      all = Spec.madeUp (rfc (secpWith enc)) magic (role.peer.of I R).rng role.peer.initiating (enc (role.of I R).rng)
        ((role.of I R).garbage.getD []) ((role.of I R).decoys.getD []) (ms.map headed) :=
  C94_made_up (C53_real_lawful enc henc) H

example := C94_real (prof := .release) ellswiftOf (fun _ => ellswiftEncode_length _) (magic := [0xF9, 0xBE, 0xB4, 0xD9]) real_pair

end Bip324
