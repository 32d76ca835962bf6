import Verif.Props.Packet
import Verif.Props.Schedule

/-!
# Properties of packet streams: C02, C42 (cipher session part)
-/

namespace Bip324

variable {P : Prims} {prof : Profile}

/-! ## A receiver that uses the public API -/

/-- Receive one packet from the front of a byte stream: three bytes for `decrypt_packet_len`, that
many bytes for `decrypt_in_place`.  Result: new state, (type, contents), the rest of the stream. -/
def recvOne (P : Prims) (prof : Profile) (i : InboundCipher) (aad : Option Bytes) (wire : Bytes) :
    Option (InboundCipher × (PacketType × Bytes) × Bytes) :=
  if wire.length < 3 then none
  else
    match i.decryptPacketLen P prof (wire.take 3) with
    | (i1, .ok n) =>
      if (wire.drop 3).length < n then none
      else
        match i1.decryptInPlace P prof ((wire.drop 3).take n) aad with
        | (i2, _, .ok (ty, plain)) => some (i2, (ty, plain.drop 1), (wire.drop 3).drop n)
        | _ => none
    | _ => none

/-- Receive one packet for every AAD of the list. -/
def recvAll (P : Prims) (prof : Profile) : InboundCipher → List (Option Bytes) → Bytes →
    Option (InboundCipher × List (PacketType × Bytes) × Bytes)
  | i, [], wire => some (i, [], wire)
  | i, aad :: aads, wire =>
    match recvOne P prof i aad wire with
    | none => none
    | some (i', m, rest) =>
      match recvAll P prof i' aads rest with
      | none => none
      | some (i'', ms, rest') => some (i'', m :: ms, rest')

/-- What the receiver should see of a message. -/
def Msg.visible (m : Msg) : PacketType × Bytes := (m.ty, m.contents)

theorem recvOne_of_encrypt (hP : Lawful P) {o o' : OutboundCipher} {i : InboundCipher}
    (hm : Matching o i) (m : Msg) (hlen : m.contents.length < 2 ^ 24) {w : Bytes}
    (he : o.encryptToVec P prof m.contents m.ty m.aad = (o', .ok w)) (rest : Bytes) :
    ∃ i', Matching o' i' ∧ recvOne P prof i m.aad (w ++ rest) = some (i', m.visible, rest) := by
  obtain ⟨i1, i2, hm2, hl, ⟨buf, hd⟩, -⟩ :=
    C01_packet_round_trip hP hm m.contents hlen m.ty m.aad he
  refine ⟨i2, hm2, ?_⟩
  have hw : 3 ≤ w.length := by
    obtain ⟨pc, ct, tag, lc, encLen, -, hcr, -, rfl⟩ :=
      OutboundCipher.encryptToVec_ok_inv hP o m.contents m.ty m.aad he
    have := FSStream.crypt_length hcr
    simp at this
    simp [this]
  unfold recvOne
  rw [if_neg (by simp; omega), List.take_append_of_le_length hw, hl]
  simp only
  rw [List.drop_append_of_le_length hw, if_neg (by simp), List.take_left, List.drop_left, hd]
  simp [Msg.visible]

/-! ## C02 -/

/-- C02: any sequence of packets written one after another is read back, whatever follows on the
wire, and the two ends match again. -/
theorem C02_stream_round_trip (hP : Lawful P) (ms : List Msg) {o o' : OutboundCipher}
    {i : InboundCipher} (hm : Matching o i) (hlen : ∀ m ∈ ms, m.contents.length < 2 ^ 24)
    {ws : List Bytes} (hs : sendAll P prof o ms = .ok (o', ws)) (rest : Bytes) :
    ∃ i', Matching o' i' ∧
      recvAll P prof i (ms.map Msg.aad) (ws.flatten ++ rest)
        = some (i', ms.map Msg.visible, rest) := by
  induction ms generalizing o i ws with
  | nil =>
    simp only [sendAll, Outcome.ok.injEq, Prod.mk.injEq] at hs
    obtain ⟨rfl, rfl⟩ := hs
    exact ⟨i, hm, rfl⟩
  | cons m ms ih =>
    unfold sendAll at hs
    split at hs
    · rename_i o1 w he
      split at hs
      · rename_i o2 ws' hs'
        simp only [Outcome.ok.injEq, Prod.mk.injEq] at hs
        obtain ⟨rfl, rfl⟩ := hs
        obtain ⟨i1, hm1, hr1⟩ := recvOne_of_encrypt hP hm m (hlen m (by simp)) he (ws'.flatten ++ rest)
        obtain ⟨i2, hm2, hr2⟩ := ih hm1 (fun x hx => hlen x (by simp [hx])) hs'
        refine ⟨i2, hm2, ?_⟩
        simp only [List.map_cons, recvAll, List.flatten_cons, List.append_assoc, hr1, hr2]
      · simp at hs
      · simp at hs
    · simp at hs
    · simp at hs

/-- C02, progress: from fresh ciphers every sequence of fewer than `2^32` packets can be sent (any
number of re-keyings up to that). -/
theorem C02_send_progress (hP : Lawful P) (kL kP : Bytes) (ms : List Msg)
    (h : ms.length < 2 ^ 32) :
    ∃ o' ws, sendAll P prof ⟨FSStream.new kL, FSAead.new kP⟩ ms = .ok (o', ws) := by
  obtain ⟨o', ho⟩ := C09_packets_conform (prof := prof) hP kL kP ms h
  exact ⟨o', _, ho⟩

/-- C02, without overflow checks there is no bound at all on the number of packets. -/
theorem C02_send_progress_release (hP : Lawful P) (hprof : prof.overflowChecks = false)
    (o : OutboundCipher) (ms : List Msg) : ∃ o' ws, sendAll P prof o ms = .ok (o', ws) := by
  induction ms generalizing o with
  | nil => exact ⟨o, [], rfl⟩
  | cons m ms ih =>
    obtain ⟨o1, w, he⟩ := C01_encrypt_progress hP o m.contents m.ty m.aad (.inl hprof)
    obtain ⟨o2, ws, hs⟩ := ih o1
    exact ⟨o2, w :: ws, by rw [sendAll, he]; simp only [hs]⟩

/-- Non-vacuity: 500 packets (two re-keys) from matching fresh ciphers in a debug build. -/
example : ∃ (ms : List Msg) (o' : OutboundCipher) (ws : List Bytes),
    ms.length = 500 ∧ (∀ m ∈ ms, m.contents.length < 2 ^ 24) ∧
    Matching ⟨FSStream.new (zeros 32), FSAead.new (zeros 32)⟩
      ⟨FSStream.new (zeros 32), FSAead.new (zeros 32)⟩ ∧
    sendAll toy .debug ⟨FSStream.new (zeros 32), FSAead.new (zeros 32)⟩ ms = .ok (o', ws) := by
  obtain ⟨o', ws, h⟩ := C02_send_progress (prof := .debug) toy_lawful (zeros 32) (zeros 32)
    (List.replicate 500 ⟨.decoy, [1, 2], some [3]⟩) (by rw [List.length_replicate]; omega)
  refine ⟨_, o', ws, List.length_replicate .., ?_, ⟨rfl, rfl⟩, h⟩
  intro m hm
  rw [List.eq_of_mem_replicate hm]
  decide

/-! ## Two sessions talking to each other -/

/-- One event of a two-party session. -/
inductive DuplexEvent where
  | sendA (m : Msg)
  | sendB (m : Msg)
  | recvA
  | recvB
deriving Repr, DecidableEq

/-- Two sessions, the bytes in flight in both directions, the AADs the receivers expect (agreed
out of band), and what has been delivered. -/
structure Duplex where
  a : CipherSession
  b : CipherSession
  wireAB : Bytes
  wireBA : Bytes
  aadsAB : List (Option Bytes)
  aadsBA : List (Option Bytes)
  gotB : List (PacketType × Bytes)
  gotA : List (PacketType × Bytes)
deriving DecidableEq

/-- One step; `none` when the operation panics or is refused.  Receiving with nothing outstanding
is a no-op (nobody calls `decrypt` then). -/
def Duplex.step (P : Prims) (prof : Profile) (s : Duplex) : DuplexEvent → Option Duplex
  | .sendA m =>
    match s.a.outbound.encryptToVec P prof m.contents m.ty m.aad with
    | (o, .ok w) => some { s with a := { s.a with outbound := o }, wireAB := s.wireAB ++ w,
                                  aadsAB := s.aadsAB ++ [m.aad] }
    | _ => none
  | .sendB m =>
    match s.b.outbound.encryptToVec P prof m.contents m.ty m.aad with
    | (o, .ok w) => some { s with b := { s.b with outbound := o }, wireBA := s.wireBA ++ w,
                                  aadsBA := s.aadsBA ++ [m.aad] }
    | _ => none
  | .recvB =>
    match s.aadsAB with
    | [] => some s
    | aad :: aads =>
      match recvOne P prof s.b.inbound aad s.wireAB with
      | some (i, m, rest) => some { s with b := { s.b with inbound := i }, wireAB := rest,
                                           aadsAB := aads, gotB := s.gotB ++ [m] }
      | none => none
  | .recvA =>
    match s.aadsBA with
    | [] => some s
    | aad :: aads =>
      match recvOne P prof s.a.inbound aad s.wireBA with
      | some (i, m, rest) => some { s with a := { s.a with inbound := i }, wireBA := rest,
                                           aadsBA := aads, gotA := s.gotA ++ [m] }
      | none => none

/-- A whole schedule. -/
def Duplex.run (P : Prims) (prof : Profile) : Duplex → List DuplexEvent → Option Duplex
  | s, [] => some s
  | s, e :: es =>
    match s.step P prof e with
    | some s' => s'.run P prof es
    | none => none

/-- Messages sent from A to B by a schedule. -/
def sentAB : List DuplexEvent → List Msg
  | [] => []
  | .sendA m :: es => m :: sentAB es
  | _ :: es => sentAB es

/-- Messages sent from B to A by a schedule. -/
def sentBA : List DuplexEvent → List Msg
  | [] => []
  | .sendB m :: es => m :: sentBA es
  | _ :: es => sentBA es

/-- Initial state: two fresh sessions of the two roles from one key material. -/
def Duplex.init (m : SessionKeyMaterial) : Duplex :=
  ⟨CipherSession.new m .initiator, CipherSession.new m .responder, [], [], [], [], [], []⟩

/-- One direction is in order: what is in flight is `pend`, encrypted by a sender that has sent
`n` packets in total, the receiver being ready for the first of `pend`. -/
structure DirOk (P : Prims) (prof : Profile) (kL kP : Bytes) (o : OutboundCipher) (i : InboundCipher)
    (wire : Bytes) (aads : List (Option Bytes)) (n : Nat) (pend : List Msg) : Prop where
  at_n : OutboundCipher.At P kL kP n o
  small : ∀ m ∈ pend, m.contents.length < 2 ^ 24
  aads_eq : aads = pend.map Msg.aad
  flight : ∃ o₀ ws, Matching o₀ i ∧ sendAll P prof o₀ pend = .ok (o, ws) ∧ wire = ws.flatten

theorem sendAll_snoc {o o' o'' : OutboundCipher} {ms : List Msg} {ws : List Bytes} {m : Msg}
    {w : Bytes} (h : sendAll P prof o ms = .ok (o', ws))
    (he : o'.encryptToVec P prof m.contents m.ty m.aad = (o'', .ok w)) :
    sendAll P prof o (ms ++ [m]) = .ok (o'', ws ++ [w]) := by
  induction ms generalizing o ws with
  | nil =>
    simp only [sendAll, Outcome.ok.injEq, Prod.mk.injEq] at h
    obtain ⟨rfl, rfl⟩ := h
    simp only [List.nil_append, sendAll, he]
  | cons x xs ih =>
    unfold sendAll at h
    split at h
    · rename_i o1 w1 he1
      split at h
      · rename_i o2 ws' hs'
        simp only [Outcome.ok.injEq, Prod.mk.injEq] at h
        obtain ⟨rfl, rfl⟩ := h
        simp only [List.cons_append, sendAll, he1, ih hs']
      · simp at h
      · simp at h
    · simp at h
    · simp at h

theorem DirOk.send (hP : Lawful P) {kL kP : Bytes} {o : OutboundCipher} {i : InboundCipher}
    {wire : Bytes} {aads : List (Option Bytes)} {n : Nat} {pend : List Msg}
    (h : DirOk P prof kL kP o i wire aads n pend) (m : Msg) (hm : m.contents.length < 2 ^ 24)
    (hn : n + 1 < 2 ^ 32) :
    ∃ o' w, o.encryptToVec P prof m.contents m.ty m.aad = (o', .ok w) ∧
      DirOk P prof kL kP o' i (wire ++ w) (aads ++ [m.aad]) (n + 1) (pend ++ [m]) := by
  obtain ⟨o', hat, he⟩ := h.at_n.encryptToVec (prof := prof) hP hn m.contents m.ty m.aad
  obtain ⟨o₀, ws, hm0, hs, hw⟩ := h.flight
  refine ⟨o', _, he, hat, ?_, ?_, o₀, ws ++ [_], hm0, sendAll_snoc hs he, ?_⟩
  · intro x hx
    rw [List.mem_append, List.mem_singleton] at hx
    rcases hx with hx | rfl
    · exact h.small x hx
    · exact hm
  · simp [h.aads_eq]
  · simp [hw]

theorem DirOk.recv (hP : Lawful P) {kL kP : Bytes} {o : OutboundCipher} {i : InboundCipher}
    {wire : Bytes} {aad : Option Bytes} {aads : List (Option Bytes)} {n : Nat} {pend : List Msg}
    (h : DirOk P prof kL kP o i wire (aad :: aads) n pend) :
    ∃ i' m pend' rest, pend = m :: pend' ∧ recvOne P prof i aad wire = some (i', m.visible, rest) ∧
      DirOk P prof kL kP o i' rest aads n pend' := by
  have ha := h.aads_eq
  cases pend with
  | nil => simp at ha
  | cons m pend' =>
    simp only [List.map_cons, List.cons.injEq] at ha
    obtain ⟨rfl, rfl⟩ := ha
    obtain ⟨o₀, ws, hm0, hs, rfl⟩ := h.flight
    unfold sendAll at hs
    split at hs
    · rename_i o1 w he
      split at hs
      · rename_i o2 ws' hs'
        simp only [Outcome.ok.injEq, Prod.mk.injEq] at hs
        obtain ⟨rfl, rfl⟩ := hs
        obtain ⟨i1, hm1, hr1⟩ := recvOne_of_encrypt hP hm0 m (h.small m (by simp)) he ws'.flatten
        exact ⟨i1, m, pend', ws'.flatten, rfl, hr1, h.at_n, fun x hx => h.small x (by simp [hx]), rfl,
          o1, ws', hm1, hs', rfl⟩
      · simp at hs
      · simp at hs
    · simp at hs
    · simp at hs

/-- C02: for every interleaving of sends and receives on the two ends, nothing fails, what has been
delivered in each direction is a prefix of what was sent in that direction, in order, and the rest
is still in flight and will be delivered; the other direction has no influence. -/
theorem C02_duplex (hP : Lawful P) (m : SessionKeyMaterial) (es : List DuplexEvent)
    (hab : (sentAB es).length < 2 ^ 32) (hba : (sentBA es).length < 2 ^ 32)
    (hlab : ∀ x ∈ sentAB es, x.contents.length < 2 ^ 24)
    (hlba : ∀ x ∈ sentBA es, x.contents.length < 2 ^ 24) :
    ∃ (s : Duplex) (pendAB pendBA : List Msg), (Duplex.init m).run P prof es = some s ∧
      s.gotB ++ pendAB.map Msg.visible = (sentAB es).map Msg.visible ∧
      s.gotA ++ pendBA.map Msg.visible = (sentBA es).map Msg.visible ∧
      (∃ i, recvAll P prof s.b.inbound s.aadsAB s.wireAB = some (i, pendAB.map Msg.visible, [])) ∧
      (∃ i, recvAll P prof s.a.inbound s.aadsBA s.wireBA = some (i, pendBA.map Msg.visible, [])) := by
  suffices H : ∀ (es : List DuplexEvent) (s : Duplex) (nA nB : Nat) (pA pB : List Msg),
      DirOk P prof m.initiatorLengthKey m.initiatorPacketKey s.a.outbound s.b.inbound s.wireAB
        s.aadsAB nA pA →
      DirOk P prof m.responderLengthKey m.responderPacketKey s.b.outbound s.a.inbound s.wireBA
        s.aadsBA nB pB →
      nA + (sentAB es).length < 2 ^ 32 → nB + (sentBA es).length < 2 ^ 32 →
      (∀ x ∈ sentAB es, x.contents.length < 2 ^ 24) →
      (∀ x ∈ sentBA es, x.contents.length < 2 ^ 24) →
      ∃ (s' : Duplex) (pendAB pendBA : List Msg), s.run P prof es = some s' ∧
        s'.gotB ++ pendAB.map Msg.visible = s.gotB ++ pA.map Msg.visible ++ (sentAB es).map Msg.visible ∧
        s'.gotA ++ pendBA.map Msg.visible = s.gotA ++ pB.map Msg.visible ++ (sentBA es).map Msg.visible ∧
        (∃ i, recvAll P prof s'.b.inbound s'.aadsAB s'.wireAB = some (i, pendAB.map Msg.visible, [])) ∧
        (∃ i, recvAll P prof s'.a.inbound s'.aadsBA s'.wireBA = some (i, pendBA.map Msg.visible, [])) by
    have h0 := H es (Duplex.init m) 0 0 [] []
      ⟨⟨FSStream.at_new _, FSAead.at_new _⟩, by simp, rfl, _, [], ⟨rfl, rfl⟩, rfl, rfl⟩
      ⟨⟨FSStream.at_new _, FSAead.at_new _⟩, by simp, rfl, _, [], ⟨rfl, rfl⟩, rfl, rfl⟩
      (by omega) (by omega) hlab hlba
    obtain ⟨s', pab, pba, h1, h2, h3, h4, h5⟩ := h0
    exact ⟨s', pab, pba, h1, by simpa [Duplex.init] using h2, by simpa [Duplex.init] using h3, h4, h5⟩
  intro es
  induction es with
  | nil =>
    intro s nA nB pA pB hA hB _ _ _ _
    refine ⟨s, pA, pB, rfl, by simp [sentAB], by simp [sentBA], ?_, ?_⟩
    · obtain ⟨o₀, ws, hm0, hs, hw⟩ := hA.flight
      obtain ⟨i', -, hr⟩ := C02_stream_round_trip hP pA hm0 hA.small hs []
      exact ⟨i', by rw [hA.aads_eq, hw]; simpa using hr⟩
    · obtain ⟨o₀, ws, hm0, hs, hw⟩ := hB.flight
      obtain ⟨i', -, hr⟩ := C02_stream_round_trip hP pB hm0 hB.small hs []
      exact ⟨i', by rw [hB.aads_eq, hw]; simpa using hr⟩
  | cons e es ih =>
    intro s nA nB pA pB hA hB hnA hnB hlA hlB
    cases e with
    | sendA x =>
      simp only [sentAB, sentBA, List.length_cons, List.mem_cons, forall_eq_or_imp] at hnA hnB hlA hlB
      obtain ⟨o', w, he, hA'⟩ := hA.send hP x hlA.1 (by omega)
      obtain ⟨s', pab, pba, h1, h2, h3, h4, h5⟩ := ih
        { s with a := { s.a with outbound := o' }, wireAB := s.wireAB ++ w, aadsAB := s.aadsAB ++ [x.aad] }
        (nA + 1) nB (pA ++ [x]) pB hA' hB (by omega) hnB hlA.2 hlB
      refine ⟨s', pab, pba, ?_, ?_, ?_, h4, h5⟩
      · simp only [Duplex.run, Duplex.step, he, h1]
      · simpa [sentAB] using h2
      · simpa [sentBA] using h3
    | sendB x =>
      simp only [sentAB, sentBA, List.length_cons, List.mem_cons, forall_eq_or_imp] at hnA hnB hlA hlB
      obtain ⟨o', w, he, hB'⟩ := hB.send hP x hlB.1 (by omega)
      obtain ⟨s', pab, pba, h1, h2, h3, h4, h5⟩ := ih
        { s with b := { s.b with outbound := o' }, wireBA := s.wireBA ++ w, aadsBA := s.aadsBA ++ [x.aad] }
        nA (nB + 1) pA (pB ++ [x]) hA hB' hnA (by omega) hlA hlB.2
      refine ⟨s', pab, pba, ?_, ?_, ?_, h4, h5⟩
      · simp only [Duplex.run, Duplex.step, he, h1]
      · simpa [sentAB] using h2
      · simpa [sentBA] using h3
    | recvB =>
      simp only [sentAB, sentBA] at hnA hnB hlA hlB
      cases haads : s.aadsAB with
      | nil =>
        obtain ⟨s', pab, pba, h1, h2, h3, h4, h5⟩ := ih s nA nB pA pB hA hB hnA hnB hlA hlB
        exact ⟨s', pab, pba, by simp only [Duplex.run, Duplex.step, haads, h1], h2, h3, h4, h5⟩
      | cons aad aads =>
        rw [haads] at hA
        obtain ⟨i', x, pend', rest, rfl, hr, hA'⟩ := hA.recv hP
        obtain ⟨s', pab, pba, h1, h2, h3, h4, h5⟩ := ih
          { s with b := { s.b with inbound := i' }, wireAB := rest, aadsAB := aads,
                   gotB := s.gotB ++ [x.visible] }
          nA nB pend' pB hA' hB hnA hnB hlA hlB
        refine ⟨s', pab, pba, ?_, ?_, h3, h4, h5⟩
        · simp only [Duplex.run, Duplex.step, haads, hr, h1]
        · simpa [sentAB] using h2
    | recvA =>
      simp only [sentAB, sentBA] at hnA hnB hlA hlB
      cases haads : s.aadsBA with
      | nil =>
        obtain ⟨s', pab, pba, h1, h2, h3, h4, h5⟩ := ih s nA nB pA pB hA hB hnA hnB hlA hlB
        exact ⟨s', pab, pba, by simp only [Duplex.run, Duplex.step, haads, h1], h2, h3, h4, h5⟩
      | cons aad aads =>
        rw [haads] at hB
        obtain ⟨i', x, pend', rest, rfl, hr, hB'⟩ := hB.recv hP
        obtain ⟨s', pab, pba, h1, h2, h3, h4, h5⟩ := ih
          { s with a := { s.a with inbound := i' }, wireBA := rest, aadsBA := aads,
                   gotA := s.gotA ++ [x.visible] }
          nA nB pA pend' hA hB' hnA hnB hlA hlB
        refine ⟨s', pab, pba, ?_, h2, ?_, h4, h5⟩
        · simp only [Duplex.run, Duplex.step, haads, hr, h1]
        · simpa [sentBA] using h3

end Bip324
