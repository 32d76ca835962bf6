import Verif.Props.Deny

/-!
# C95: cutting a connection

Somebody who can do nothing but close the connection chooses after how many bytes.  What the receiving side can tell from it.
-/

namespace Bip324

open Concrete

variable {P : Prims} {prof : Profile}

namespace Spec

/-- How many packets with contents of these lengths are complete in so many bytes. -/
def whole : Nat → List Nat → Nat
  | _, [] => 0
  | c, l :: ls => if l + 20 ≤ c then whole (c - (l + 20)) ls + 1 else 0

end Spec

theorem judge_cut (hP : Lawful P) {longest : Nat} (kL kP : Bytes) (ms : List (UInt8 × Bytes)) : ∀ (n c : Nat),
    (∀ m ∈ ms, m.2.length ≤ longest ∧ m.2.length < 2 ^ 24) →
    Spec.JudgeSession longest P kL kP n ((Spec.packetStream P kL kP n [] ms).take c)
      (ms.take (Spec.whole c (ms.map fun m => m.2.length))) .waits := by
  induction ms with
  | nil => exact fun n c _ => .waits (.inl (by simp [Spec.packetStream]))
  | cons m ms ih =>
    intro n c h
    obtain ⟨h1, h2⟩ := h m (by simp)
    have hl := rawPacket_length hP kL kP n m.1 [] m.2
    rw [packetStream_append, List.map_cons, Spec.whole]
    by_cases hc : m.2.length + 20 ≤ c
    · rw [if_pos hc, List.take_succ_cons, List.take_append, List.take_of_length_le (by omega), hl]
      exact .message h1 h2 (ih (n + 1) _ fun x hx => h x (by simp [hx]))
    · rw [if_neg hc, List.take_zero, List.take_append_of_le_length (by omega)]
      refine .waits ?_
      by_cases h3 : c < 3
      · exact .inl (by rw [List.length_take]; omega)
      · refine .inr ⟨m.2.length, ⟨h2, ?_⟩, by omega, by rw [List.length_take]; omega⟩
        rw [List.take_take, Nat.min_eq_left (by omega), rawPacket_eq]
        exact take_append_len _ _ (lengthBytes_length (P := P) kL n _).symm


theorem readMany_snoc {n : Nat} : ∀ {r r1 r2 : SyncReader} {xs : List (Outcome ProtocolError Payload)} {x : Outcome ProtocolError Payload},
    r.readMany P prof n = (r1, xs) → r1.read P prof = (r2, x) → r.readMany P prof (n + 1) = (r2, xs ++ [x]) := by
  induction n with
  | zero =>
    intro r r1 r2 xs x h h'
    simp only [SyncReader.readMany, Prod.mk.injEq] at h
    obtain ⟨rfl, rfl⟩ := h
    simp only [SyncReader.readMany, h', List.nil_append]
  | succ n ih =>
    intro r r1 r2 xs x h h'
    rw [SyncReader.readMany] at h ⊢
    cases hr : r.read P prof with
    | mk r0 x0 =>
    cases hm : r0.readMany P prof n with
    | mk r3 xs3 =>
    rw [hr] at h
    simp only [hm, Prod.mk.injEq] at h
    obtain ⟨rfl, rfl⟩ := h
    simp only [ih hm h', List.cons_append]

/-- The first bytes of a stream of packets: some whole packets, and then less than one. -/
theorem stream_cut (hP : Lawful P) (kL kP : Bytes) (ms : List (UInt8 × Bytes)) : ∀ (n c : Nat), (∀ m ∈ ms, m.2.length < 2 ^ 24) →
    ∃ rest, (Spec.packetStream P kL kP n [] ms).take c =
        Spec.packetStream P kL kP n [] (ms.take (Spec.whole c (ms.map fun m => m.2.length))) ++ rest ∧
      Spec.whole c (ms.map fun m => m.2.length) ≤ ms.length ∧
      (rest.length < 3 ∨ ∃ len more, len < 2 ^ 24 ∧ more.length < len + 17 ∧
        Spec.whole c (ms.map fun m => m.2.length) < ms.length ∧
        rest = Spec.xor (Spec.le 3 len) (Spec.lengthMask P kL (n + Spec.whole c (ms.map fun m => m.2.length))) ++ more) := by
  induction ms with
  | nil => exact fun n c _ => ⟨[], by simp [Spec.packetStream], by simp [Spec.whole], .inl (by simp)⟩
  | cons m ms ih =>
    intro n c h
    have h2 := h m (by simp)
    have hl := rawPacket_length hP kL kP n m.1 [] m.2
    rw [packetStream_append, List.map_cons, Spec.whole]
    by_cases hc : m.2.length + 20 ≤ c
    · rw [if_pos hc, List.take_succ_cons, List.take_append, List.take_of_length_le (by omega), hl]
      obtain ⟨rest, h1, h3, h4⟩ := ih (n + 1) (c - (m.2.length + 20)) fun x hx => h x (by simp [hx])
      refine ⟨rest, by rw [h1, packetStream_append, List.append_assoc], by simpa using h3, ?_⟩
      rcases h4 with h4 | ⟨len, more, g1, g2, g3, g4⟩
      · exact .inl h4
      · refine .inr ⟨len, more, g1, g2, by simpa using g3, ?_⟩
        rw [g4, show n + (Spec.whole (c - (m.2.length + 20)) (ms.map fun m => m.2.length) + 1)
          = n + 1 + Spec.whole (c - (m.2.length + 20)) (ms.map fun m => m.2.length) by omega]
    · rw [if_neg hc, List.take_zero, List.take_append_of_le_length (by omega)]
      refine ⟨_, by simp [Spec.packetStream]; rfl, by omega, ?_⟩
      by_cases h3 : c < 3
      · exact .inl (by rw [List.length_take]; omega)
      · have hbl := lengthBytes_length (P := P) kL n m.2.length
        refine .inr ⟨m.2.length, (Spec.sealedPart P kP n m.1 [] m.2).take (c - 3), h2, ?_, by simp, ?_⟩
        · rw [List.length_take]; omega
        · rw [rawPacket_eq, List.take_append, List.take_of_length_le (by omega), hbl, Nat.add_zero]

/-- C95, the blocking reader: of the packets number `n`, `n + 1`, ... it gets the first `c` bytes.  It returns the messages that are
complete, and then the error of the transport; whether the cut is between two packets or in the middle of one makes no difference. -/
theorem C95_session (hP : Lawful P) {kL kP : Bytes} {n : Nat} {tail : Source} {k : ErrorKind} (hend : EndsWith true tail k)
    {r : SyncReader} (hat : r.cipher.At P kL kP n) {ms : List (UInt8 × Bytes)} (hn : n + ms.length < 2 ^ 32)
    (hms : ∀ m ∈ ms, m.2.length ≤ 4000013) {c : Nat} (hs : SyncStreams r.reader ((Spec.packetStream P kL kP n [] ms).take c) tail) :
    (r.readMany P prof (Spec.whole c (ms.map fun m => m.2.length) + 1)).2 =
      (ms.take (Spec.whole c (ms.map fun m => m.2.length))).map (fun m => .ok (delivered m)) ++ [.err (.fromIo k)] := by
  obtain ⟨rest, h1, hj, h2⟩ := stream_cut hP kL kP ms n c fun m hm => by have := hms m hm; omega
  generalize hw : Spec.whole c (ms.map fun m => m.2.length) = j at *
  have hms' : ∀ m ∈ ms.take j, m.2.length ≤ 4000013 := fun m hm => hms m (List.mem_of_mem_take hm)
  rw [h1, packetStream_framed hP] at hs
  obtain ⟨r', xs, g1, g2, g3, g4⟩ := C93_frames (prof := prof) hP hend _ (r := r) hat.1 hat.2 (by simp; omega) (by simp; omega)
    (fun b hb => by
      obtain ⟨j, m, hm, rfl⟩ := mem_bodies hb
      have := hms' m (List.mem_of_getElem? hm)
      rw [sealedPart_length hP]
      omega) hs
  rw [List.length_mapIdx, List.length_take, Nat.min_eq_left hj] at g1 g3
  have hread : ∃ r'', r'.read P prof = (r'', .err (.fromIo k)) := by
    rcases h2 with h2 | ⟨len, more, k1, k2, k3, rfl⟩
    · obtain ⟨s', he⟩ := (sync_readExact hend g4 3).2 h2
      unfold SyncReader.read
      rw [show NUM_LENGTH_BYTES = 3 from rfl, he]
      exact ⟨_, rfl⟩
    · have hbl := lengthBytes_length (P := P) kL (n + j) len
      obtain ⟨s1, he1, hs1⟩ := (sync_readExact hend g4 3).1 (by rw [List.length_append]; omega)
      rw [take_append_len _ _ hbl.symm] at he1
      rw [drop_append_len _ _ hbl.symm] at hs1
      obtain ⟨i1, hd, -, -⟩ := decryptPacketLen_alone (prof := prof) g3 (by omega) len k1
      obtain ⟨s2, he2⟩ := (sync_readExact hend hs1 (len + 17)).2 k2
      unfold SyncReader.read
      rw [show NUM_LENGTH_BYTES = 3 from rfl, he1]
      simp only [hd, he2]
      exact ⟨_, rfl⟩
  obtain ⟨r'', hr⟩ := hread
  rw [readMany_snoc g1 hr, readOn_unique hP g2 (readOn_all _ hms')]

theorem headed_length {ms : List Payload} (hz : ∀ p ∈ ms, ∀ c, p.contents = some c → c.length ≤ 4000013) :
    ∀ m ∈ ms.map headed, m.2.length ≤ 4000013 := by
  intro m hm
  obtain ⟨p, hp, rfl⟩ := List.mem_map.1 hm
  unfold headed
  cases hv : p.view with
  | none => simp
  | some v =>
    exact hz p hp v.2 (Payload.view_some.1 hv).2

/-- The handshake is complete, and then the connection is cut. -/
theorem cut_later (hP : Lawful P) {magic : Bytes} {role : Role} {me : Peer} (hme : Ready P prof me) {reader tail : Source}
    {k : ErrorKind} {writer : Sink} (hw : writer.Reliable true) (hend : EndsWith true tail k) {theirKey garbage : Bytes}
    {decoys : List Bytes} {ms : List (UInt8 × Bytes)} (hn : decoys.length + 1 + ms.length < 2 ^ 32)
    (hadm : Spec.Admissible magic (Spec.directions P magic (P.ellswift me.rng) theirKey me.rng role.initiating).2.2.2 theirKey garbage
      decoys (0, []))
    (hms : ∀ m ∈ ms, m.2.length ≤ 4000013) {c L : Nat}
    (hL : L = (Spec.peerTranscript P (Spec.directions P magic (P.ellswift me.rng) theirKey me.rng role.initiating).2 theirKey garbage decoys
      (0, [])).length) (hc : L ≤ c)
    (hs : Streams false reader ((Spec.madeUp P magic me.rng role.initiating theirKey garbage decoys ms).take c) tail) :
    ∃ p, SyncProtocol.new P prof magic role me.rng me.garbage me.decoys reader writer = .ok p ∧
      (p.reader.readMany P prof (Spec.whole (c - L) (ms.map fun m => m.2.length) + 1)).2 =
        (ms.take (Spec.whole (c - L) (ms.map fun m => m.2.length))).map (fun m => .ok (delivered m)) ++ [.err (.fromIo k)] := by
  unfold Spec.madeUp at hs
  simp only at hs
  rw [List.take_append, List.take_of_length_le (by omega), ← hL] at hs
  obtain ⟨w', log, i, o, s, h1, -, h3, -, h5⟩ := handshake_complete (prof := prof) syncAbs hP hme.key hme.garbage hme.decoys hw hend
    (by omega) hadm hs
  exact ⟨⟨⟨i, s⟩, ⟨o, w'⟩⟩, by unfold SyncProtocol.new; rw [h1], C95_session (r := ⟨i, s⟩) hP hend h3 hn hms h5⟩

/-- The same, with the asynchronous API. -/
theorem cut_later_async (hP : Lawful P) {magic : Bytes} {role : Role} {me : Peer} (hme : Ready P prof me) {reader tail : Source}
    {k : ErrorKind} {writer : Sink} (hw : writer.Reliable false) (hend : EndsWith false tail k) (hq : tail.bytes = [])
    {theirKey garbage : Bytes} {decoys : List Bytes} {ms : List (UInt8 × Bytes)} (hn : decoys.length + 1 < 2 ^ 31)
    (hadm : Spec.Admissible magic (Spec.directions P magic (P.ellswift me.rng) theirKey me.rng role.initiating).2.2.2 theirKey garbage
      decoys (0, []))
    (hms : ∀ m ∈ ms, m.2.length ≤ 4000013) {c L : Nat}
    (hL : L = (Spec.peerTranscript P (Spec.directions P magic (P.ellswift me.rng) theirKey me.rng role.initiating).2 theirKey garbage decoys
      (0, [])).length) (hc : L ≤ c)
    (hs : Streams false reader ((Spec.madeUp P magic me.rng role.initiating theirKey garbage decoys ms).take c) tail) :
    ∃ p, AsyncProtocol.new P prof magic role me.rng me.garbage me.decoys reader writer = .ok p ∧
      ∀ es, es.length < 2 ^ 31 →
        payloads (p.reader.run P prof es).2 <+: (ms.take (Spec.whole (c - L) (ms.map fun m => m.2.length))).map delivered ∧
        (∀ x ∈ (p.reader.run P prof es).2, (∃ m, x = .ok m) ∨ ∃ k', x = .err (.fromIo k')) ∧
        (p.reader.reader.size + ms.length ≤ polls es →
          payloads (p.reader.run P prof es).2 = (ms.take (Spec.whole (c - L) (ms.map fun m => m.2.length))).map delivered) := by
  unfold Spec.madeUp at hs
  simp only at hs
  rw [List.take_append, List.take_of_length_le (by omega), ← hL] at hs
  obtain ⟨w', log, i, o, s, h1, -, h3, -, h5⟩ := handshake_complete (prof := prof) asyncAbs hP hme.key hme.garbage hme.decoys hw hend
    (by omega) hadm hs
  refine ⟨⟨⟨i, s, .initReadingLength⟩, ⟨o, w'⟩⟩, by unfold AsyncProtocol.new; rw [h1], fun es hes => ?_⟩
  have hr := fresh_reads (r := ⟨i, s, .initReadingLength⟩) h3 rfl
  rw [show (⟨i, s, .initReadingLength⟩ : AsyncReader).reader = s from rfl, async_remaining h5, hq, List.append_nil] at hr
  obtain ⟨j, hj, k1, k2, k3, -⟩ := C62_session_async (prof := prof) hP es hr (by omega) rfl
    (judge_cut (longest := 2 ^ 24 - 1) hP _ _ ms _ (c - L) fun m hm => by have := hms m hm; omega)
  refine ⟨?_, fun x hx => ?_, fun h => ?_⟩
  · rw [k1, List.map_take]; exact List.take_prefix _ _
  · rcases k2 x hx with h | h | ⟨-, h, -⟩
    · exact .inl h
    · exact .inr h
    · exact absurd h (by simp)
  · have h' : s.size + ms.length ≤ polls es := h
    rw [k1, k3 (by show s.size + _ ≤ _; rw [List.length_take]; omega), List.take_length]

theorem honest_ready {magic : Bytes} {I R : Peer} (H : Honest P prof magic I R) (role : Role) : Ready P prof (role.of I R) :=
  ⟨honest_key H role, honest_garbage H role, honest_count H role⟩

/-- What the other side of an honest party needs to know of it. -/
theorem honest_madeUp (hP : Lawful P) {magic : Bytes} {I R : Peer} (H : Honest P prof magic I R) (role : Role) :
    Spec.Admissible magic (Spec.directions P magic (P.ellswift (role.peer.of I R).rng) (P.ellswift (role.of I R).rng)
      (role.peer.of I R).rng role.peer.initiating).2.2.2 (P.ellswift (role.of I R).rng) ((role.of I R).garbage.getD [])
      ((role.of I R).decoys.getD []) (0, []) ∧
    (flight P magic I R role).length = (Spec.peerTranscript P (Spec.directions P magic (P.ellswift (role.peer.of I R).rng)
      (P.ellswift (role.of I R).rng) (role.peer.of I R).rng role.peer.initiating).2 (P.ellswift (role.of I R).rng)
      ((role.of I R).garbage.getD []) ((role.of I R).decoys.getD []) (0, [])).length := by
  have hr : role.peer.peer = role := by cases role <;> rfl
  have h1 := honest_admissible hP H role
  have h2 := congrArg List.length (flight_transcript hP H role)
  unfold Role.dirs Role.key at h1 h2
  rw [hr] at h1 h2
  exact ⟨h1, h2⟩

/-- C95, blocking API, in the handshake: whatever an honest party sends, with whichever API, somebody cuts the connection before its
handshake is complete.  The other side gets an error that advises to use V1. -/
theorem C95_handshake (hP : Lawful P) {magic : Bytes} {I R : Peer} (H : Honest P prof magic I R) {role : Role} {more : Bytes}
    {c : Nat} {src tail : Source} {k : ErrorKind} {w : Sink} (hk : PeerGone k) (hend : EndsWith true tail k) (hw : w.Reliable true)
    (hs : Streams false src ((flight P magic I R role ++ more).take c) tail) (hc : c < (flight P magic I R role).length) :
    SyncProtocol.new P prof magic role.peer (role.peer.of I R).rng (role.peer.of I R).garbage (role.peer.of I R).decoys src w =
      .err (.io k .retryV1) := by
  rw [List.take_append_of_le_length (by omega)] at hs
  have hq : (flight P magic I R role).drop c ≠ [] := by
    rw [ne_eq, List.drop_eq_nil_iff]; omega
  have hg := C33_honest_peer_gone hP H (.inl rfl) w hw src tail k hk hend _ _ hq hs
  have hpq := List.take_append_drop c (flight P magic I R role)
  have hx : (handshake syncApi P prof magic role.peer (role.peer.of I R).rng (role.peer.of I R).garbage (role.peer.of I R).decoys
      src w).2.2 = .err (.io k .retryV1) := by
    cases role
    · exact hg.2 hpq
    · exact hg.1 hpq
  unfold SyncProtocol.new
  split
  · next h => rw [h] at hx; cases hx
  · next h => rw [h] at hx; simpa using hx
  · next h => rw [h] at hx; cases hx

/-- C95, from the first byte on: an honest party, with whichever API, sends its handshake and messages, and somebody cuts the connection
after `c` bytes of that.  In the handshake, the other side gets an error that advises to use V1.  Later, it gets the messages that were
complete, and then the very same error. -/
theorem C95_connection (hP : Lawful P) {magic : Bytes} {I R : Peer} (H : Honest P prof magic I R) :
    AllSenders P prof magic I R fun role all ms =>
      ((role.of I R).decoys.getD []).length + ms.length + 1 < 2 ^ 32 →
      ∀ {c : Nat} {src tail : Source} {k : ErrorKind} {w : Sink}, PeerGone k → EndsWith true tail k → w.Reliable true →
      Streams false src (all.take c) tail →
      (c < (flight P magic I R role).length →
        SyncProtocol.new P prof magic role.peer (role.peer.of I R).rng (role.peer.of I R).garbage (role.peer.of I R).decoys src w =
          .err (.io k .retryV1)) ∧
      ((flight P magic I R role).length ≤ c →
        ∃ p j, SyncProtocol.new P prof magic role.peer (role.peer.of I R).rng (role.peer.of I R).garbage (role.peer.of I R).decoys src w =
          .ok p ∧ j = Spec.whole (c - (flight P magic I R role).length) (ms.map fun m => (headed m).2.length) ∧
        (p.reader.readMany P prof (j + 1)).2 = (ms.take j).map (fun m => .ok (delivered (headed m))) ++ [.err (.io k .retryV1)]) := by
  obtain ⟨i, o, f, hat, -⟩ := honest_ofSent hP H
  refine all_senders hP f hat ?_
  intro role ms o' sent hS hz hn c src tail k w hk hend hw hs
  have hr : role.peer.peer = role := by cases role <;> rfl
  have hk' : ProtocolError.fromIo k = .io k .retryV1 := by rcases hk with rfl | rfl | rfl <;> rfl
  refine ⟨C95_handshake hP H hk hend hw hs, fun hc => ?_⟩
  have hd := dirs_peer hP H role.peer
  rw [hr] at hd
  obtain ⟨hst, -⟩ := sent_stream hP hS (sessions_at hP H f role) (by omega)
  have hmu : flight P magic I R role ++ sent = Spec.madeUp P magic (role.peer.of I R).rng role.peer.initiating
      (P.ellswift (role.of I R).rng) ((role.of I R).garbage.getD []) ((role.of I R).decoys.getD []) (ms.map headed) := by
    rw [hst, flight_transcript hP H role, hd]
    unfold Spec.madeUp Role.dirs Role.key
    rw [hr]
  rw [hmu] at hs
  obtain ⟨hadm, hL⟩ := honest_madeUp hP H role
  obtain ⟨p, h1, h2⟩ := cut_later hP (honest_ready H role.peer) hw hend (by rw [List.length_map]; omega) hadm (headed_length hz) hL hc hs
  refine ⟨p, _, h1, rfl, ?_⟩
  rw [List.map_map, hk'] at h2
  rw [show (fun m => (headed m).2.length) = (fun m : UInt8 × Bytes => m.2.length) ∘ headed from rfl, h2, ← List.map_take, List.map_map]
  rfl

/-- C95, the asynchronous API: whatever the polls and cancellations, the messages that were complete are returned in order, and nothing
but I/O errors besides. -/
theorem C95_connection_async (hP : Lawful P) {magic : Bytes} {I R : Peer} (H : Honest P prof magic I R) :
    AllSenders P prof magic I R fun role all ms =>
      ((role.of I R).decoys.getD []).length + ms.length + 1 < 2 ^ 31 →
      ∀ {c : Nat} {src tail : Source} {k : ErrorKind} {w : Sink}, PeerGone k → EndsWith false tail k → tail.bytes = [] →
      w.Reliable false → Streams false src (all.take c) tail →
      (c < (flight P magic I R role).length →
        AsyncProtocol.new P prof magic role.peer (role.peer.of I R).rng (role.peer.of I R).garbage (role.peer.of I R).decoys src w =
          .err (.io k .retryV1)) ∧
      ((flight P magic I R role).length ≤ c →
        ∃ p j, AsyncProtocol.new P prof magic role.peer (role.peer.of I R).rng (role.peer.of I R).garbage (role.peer.of I R).decoys src w =
          .ok p ∧ j = Spec.whole (c - (flight P magic I R role).length) (ms.map fun m => (headed m).2.length) ∧
        ∀ es, es.length < 2 ^ 31 →
          payloads (p.reader.run P prof es).2 <+: (ms.take j).map (fun m => delivered (headed m)) ∧
          (∀ x ∈ (p.reader.run P prof es).2, (∃ m, x = .ok m) ∨ ∃ k', x = .err (.fromIo k')) ∧
          (p.reader.reader.size + ms.length ≤ polls es →
            payloads (p.reader.run P prof es).2 = (ms.take j).map (fun m => delivered (headed m)))) := by
  obtain ⟨i, o, f, hat, -⟩ := honest_ofSent hP H
  refine all_senders hP f hat ?_
  intro role ms o' sent hS hz hn c src tail k w hk hend hq hw hs
  have hr : role.peer.peer = role := by cases role <;> rfl
  refine ⟨fun hc => ?_, fun hc => ?_⟩
  · rw [List.take_append_of_le_length (by omega)] at hs
    have hq : (flight P magic I R role).drop c ≠ [] := by
      rw [ne_eq, List.drop_eq_nil_iff]; omega
    have hg := C33_honest_peer_gone hP H (.inr rfl) w hw src tail k hk hend _ _ hq hs
    have hpq := List.take_append_drop c (flight P magic I R role)
    have hx : (handshake asyncApi P prof magic role.peer (role.peer.of I R).rng (role.peer.of I R).garbage (role.peer.of I R).decoys
        src w).2.2 = .err (.io k .retryV1) := by
      cases role
      · exact hg.2 hpq
      · exact hg.1 hpq
    unfold AsyncProtocol.new
    split
    · next h => rw [h] at hx; cases hx
    · next h => rw [h] at hx; simpa using hx
    · next h => rw [h] at hx; cases hx
  have hd := dirs_peer hP H role.peer
  rw [hr] at hd
  obtain ⟨hst, -⟩ := sent_stream hP hS (sessions_at hP H f role) (by omega)
  have hmu : flight P magic I R role ++ sent = Spec.madeUp P magic (role.peer.of I R).rng role.peer.initiating
      (P.ellswift (role.of I R).rng) ((role.of I R).garbage.getD []) ((role.of I R).decoys.getD []) (ms.map headed) := by
    rw [hst, flight_transcript hP H role, hd]
    unfold Spec.madeUp Role.dirs Role.key
    rw [hr]
  rw [hmu] at hs
  obtain ⟨hadm, hL⟩ := honest_madeUp hP H role
  obtain ⟨p, h1, h2⟩ := cut_later_async hP (honest_ready H role.peer) hw hend hq (by omega) hadm (headed_length hz) hL hc hs
  refine ⟨p, _, h1, rfl, fun es hes => ?_⟩
  have h3 := h2 es hes
  rw [List.map_map, List.length_map, ← List.map_take, List.map_map] at h3
  exact h3

/-- The bytes of an initiator who says `[1, 2, 3]` and `[4]`, cut at every place: what the responder gets. -/
def cutExample (c : Nat) : Option (List (Outcome ProtocolError Payload)) :=
  let bs := Spec.madeUp toy [1, 2, 3, 4] (leBytes 32 77) false (toy.ellswift (leBytes 32 5)) [9, 9] [[7]] [(0, [1, 2, 3]), (0, [4])]
  match SyncProtocol.new toy .debug [1, 2, 3, 4] .responder (leBytes 32 77) none none [.data (bs.take c)] ⟨[], [], []⟩ with
  | .ok p => some (p.reader.readMany toy .debug 3).2
  | .err e => some [.err e]
  | .panic => none

/-- In the handshake; at its end and inside the first packet; between the packets and inside the second; and after it. -/
example :
    (∀ c ∈ [0, 63, 100, 122], cutExample c = some [.err (.io .unexpectedEof .retryV1)]) ∧
    (∀ c ∈ [123, 125, 126, 145], cutExample c = some (List.replicate 3 (.err (.io .unexpectedEof .retryV1)))) ∧
    (∀ c ∈ [146, 147, 166],
      cutExample c = some [.ok (delivered (0, [1, 2, 3])), .err (.io .unexpectedEof .retryV1), .err (.io .unexpectedEof .retryV1)]) ∧
    (∀ c ∈ [167, 200],
      cutExample c = some [.ok (delivered (0, [1, 2, 3])), .ok (delivered (0, [4])), .err (.io .unexpectedEof .retryV1)]) ∧
    (∀ c ∈ [123, 145], Spec.whole (c - 123) [3, 1] = 0) ∧ (∀ c ∈ [146, 166], Spec.whole (c - 123) [3, 1] = 1) := by decide +kernel

/-- C95 with the cryptography of the RFCs, BIP-324 and secp256k1. -/
theorem C95_real (enc : Bytes → Bytes) (henc : ∀ sk, (enc sk).length = 64) {magic : Bytes} {I R : Peer}
    (H : Honest (rfc (secpWith enc)) prof magic I R) :
    AllSenders (rfc (secpWith enc)) prof magic I R fun role all ms =>
      ((role.of I R).decoys.getD []).length + ms.length + 1 < 2 ^ 32 →
      ∀ {c : Nat} {src tail : Source} {k : ErrorKind} {w : Sink}, PeerGone k → EndsWith true tail k → w.Reliable true →
      Streams false src (all.take c) tail →
      (c < (flight (rfc (secpWith enc)) magic I R role).length →
        SyncProtocol.new (rfc (secpWith enc)) prof magic role.peer (role.peer.of I R).rng (role.peer.of I R).garbage
          (role.peer.of I R).decoys src w = .err (.io k .retryV1)) ∧
      ((flight (rfc (secpWith enc)) magic I R role).length ≤ c →
        ∃ p j, SyncProtocol.new (rfc (secpWith enc)) prof magic role.peer (role.peer.of I R).rng (role.peer.of I R).garbage
            (role.peer.of I R).decoys src w = .ok p ∧
          j = Spec.whole (c - (flight (rfc (secpWith enc)) magic I R role).length) (ms.map fun m => (headed m).2.length) ∧
          (p.reader.readMany (rfc (secpWith enc)) prof (j + 1)).2 =
            (ms.take j).map (fun m => .ok (delivered (headed m))) ++ [.err (.io k .retryV1)]) :=
  C95_connection (C53_real_lawful enc henc) H

example := C95_real (prof := .release) ellswiftOf (fun _ => ellswiftEncode_length _) (magic := [0xF9, 0xBE, 0xB4, 0xD9]) real_pair

end Bip324
