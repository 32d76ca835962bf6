import Verif.Props.Session

/-!
# Handshake and session together: C28, C29, C30 from `Protocol::new` on
-/

namespace Bip324

variable {P : Prims} {prof : Profile}

/-- C28 from the very beginning.  Two honest parties; the initiator (whose transport delivers the
responder's handshake, in any segmentation, and possibly more) connects and writes any payloads of at
most 4000013 bytes.  Then the responder, given everything the initiator has put on the wire, in any
segmentation, connects and reads exactly these payloads, and then the end of the stream.  The same in
the other direction. -/
theorem C28_end_to_end (hP : Lawful P) {magic rngI rngR : Bytes} {gI gR : Option Bytes}
    {dI dR : Option (List Bytes)} (H : HonestPair P prof magic rngI rngR gI gR dI dR)
    {wI wR : Sink} (hwI : wI.Reliable true) (hwR : wR.Reliable true) :
    (∀ srcI moreI tailI kI, EndsWith true tailI kI →
      Streams false srcI (wireR P magic rngI rngR gR dR ++ moreI) tailI →
      ∃ pI, SyncProtocol.new P prof magic .initiator rngI gI dI srcI wI = .ok pI ∧
      ∀ ps w' rs, pI.writer.writeMany .sync P prof ps = (w', rs) → (∀ x ∈ rs, x = .ok ()) →
      (∀ p ∈ ps, ∀ c, p.contents = some c → c.length ≤ 4000013) →
      ∀ all srcR tailR kR, w'.writer.out = wI.out ++ all → EndsWith true tailR kR →
      Streams false srcR all tailR →
      ∃ pR, SyncProtocol.new P prof magic .responder rngR gR dR srcR wR = .ok pR ∧
        ∃ r' outs, pR.reader.readMany P prof ps.length = (r', outs) ∧
          outs.map seen = ps.map Payload.view ∧ (∀ x ∈ outs, ∃ p, x = .ok p) ∧
          (r'.read P prof).2 = .err (.fromIo kR)) ∧
    (∀ srcR moreR tailR kR, EndsWith true tailR kR →
      Streams false srcR (wireI P magic rngI rngR gI dI ++ moreR) tailR →
      ∃ pR, SyncProtocol.new P prof magic .responder rngR gR dR srcR wR = .ok pR ∧
      ∀ ps w' rs, pR.writer.writeMany .sync P prof ps = (w', rs) → (∀ x ∈ rs, x = .ok ()) →
      (∀ p ∈ ps, ∀ c, p.contents = some c → c.length ≤ 4000013) →
      ∀ all srcI tailI kI, w'.writer.out = wR.out ++ all → EndsWith true tailI kI →
      Streams false srcI all tailI →
      ∃ pI, SyncProtocol.new P prof magic .initiator rngI gI dI srcI wI = .ok pI ∧
        ∃ r' outs, pI.reader.readMany P prof ps.length = (r', outs) ∧
          outs.map seen = ps.map Payload.view ∧ (∀ x ∈ outs, ∃ p, x = .ok p) ∧
          (r'.read P prof).2 = .err (.fromIo kI)) := by
  obtain ⟨iI, iR, oI, oR, hm1, hm2, fI, fR, -⟩ := honest_sessions hP H
  constructor
  · intro srcI moreI tailI kI heI hsI
    obtain ⟨w1, log1, s1, h1, -, ho1, -⟩ := fI syncApi syncAbs wI srcI tailI kI moreI hwI heI hsI
    refine ⟨⟨⟨iI, s1⟩, ⟨oI, w1⟩⟩, by simp only [SyncProtocol.new, h1], ?_⟩
    intro ps w' rs hw hok hsize all srcR tailR kR hall heR hsR
    obtain ⟨sent, hsent⟩ : w1.out <+: w'.writer.out := by
      have := writeMany_out (P := P) (prof := prof) .sync ps ⟨oI, w1⟩
      rwa [hw] at this
    have hS := sent_of_ok .sync ps hw hok hsent.symm
    have : all = wireI P magic rngI rngR gI dI ++ sent := by
      rw [← hsent, ho1, List.append_assoc] at hall
      exact (List.append_cancel_left hall).symm
    subst this
    obtain ⟨w2, log2, s2, h2, -, -, st⟩ := fR syncApi syncAbs wR srcR tailR kR sent hwR heR hsR
    refine ⟨⟨⟨iR, s2⟩, ⟨oR, w2⟩⟩, by simp only [SyncProtocol.new, h2], ?_⟩
    obtain ⟨r', outs, g1, g2, g3, -, g5⟩ := sync_delivers hP heR hS hsize (r := ⟨iR, s2⟩) hm1
      (more := []) (by rw [List.append_nil]; exact st)
    obtain ⟨s, e⟩ := sync_read_end (P := P) (prof := prof) heR g5
    exact ⟨r', outs, g1, g2, g3, by rw [e]⟩
  · intro srcR moreR tailR kR heR hsR
    obtain ⟨w1, log1, s1, h1, -, ho1, -⟩ := fR syncApi syncAbs wR srcR tailR kR moreR hwR heR hsR
    refine ⟨⟨⟨iR, s1⟩, ⟨oR, w1⟩⟩, by simp only [SyncProtocol.new, h1], ?_⟩
    intro ps w' rs hw hok hsize all srcI tailI kI hall heI hsI
    obtain ⟨sent, hsent⟩ : w1.out <+: w'.writer.out := by
      have := writeMany_out (P := P) (prof := prof) .sync ps ⟨oR, w1⟩
      rwa [hw] at this
    have hS := sent_of_ok .sync ps hw hok hsent.symm
    have : all = wireR P magic rngI rngR gR dR ++ sent := by
      rw [← hsent, ho1, List.append_assoc] at hall
      exact (List.append_cancel_left hall).symm
    subst this
    obtain ⟨w2, log2, s2, h2, -, -, st⟩ := fI syncApi syncAbs wI srcI tailI kI sent hwI heI hsI
    refine ⟨⟨⟨iI, s2⟩, ⟨oI, w2⟩⟩, by simp only [SyncProtocol.new, h2], ?_⟩
    obtain ⟨r', outs, g1, g2, g3, -, g5⟩ := sync_delivers hP heI hS hsize (r := ⟨iI, s2⟩) hm2
      (more := []) (by rw [List.append_nil]; exact st)
    obtain ⟨s, e⟩ := sync_read_end (P := P) (prof := prof) heI g5
    exact ⟨r', outs, g1, g2, g3, by rw [e]⟩

theorem async_remaining {s : AsyncSession} {bs : Bytes} {tail : Source}
    (h : SessStreams asyncAbs s bs tail) : s.remaining = bs ++ Source.bytes tail := by
  obtain ⟨c, -, habs, rfl⟩ := h
  have : Source.bytes s.abs = s.remaining := by
    unfold AsyncSession.abs AsyncSession.remaining
    split
    · rfl
    · rename_i h
      rw [List.drop_of_length_le (Nat.le_of_not_lt h), List.nil_append]
  rw [← this, show s.abs = c ++ tail from habs, Source.bytes_append]

/-- C30 from the very beginning, and C29 for the asynchronous API: as `C28_end_to_end`, with the
asynchronous API on both sides, payloads of up to `2^24 - 1` bytes, and any schedule of polls and
cancellations of the reads: the payloads returned are a prefix of those written, and after enough
polls (more than the number of events of the reader's transport that are left after the handshake) all
of them. -/
theorem C30_end_to_end (hP : Lawful P) {magic rngI rngR : Bytes} {gI gR : Option Bytes}
    {dI dR : Option (List Bytes)} (H : HonestPair P prof magic rngI rngR gI gR dI dR)
    {wI wR : Sink} (hwI : wI.Reliable false) (hwR : wR.Reliable false) :
    (∀ srcI moreI tailI kI, EndsWith false tailI kI →
      Streams false srcI (wireR P magic rngI rngR gR dR ++ moreI) tailI →
      ∃ pI, AsyncProtocol.new P prof magic .initiator rngI gI dI srcI wI = .ok pI ∧
      ∀ ps w' rs, pI.writer.writeMany .async P prof ps = (w', rs) → (∀ x ∈ rs, x = .ok ()) →
      (∀ p ∈ ps, ∀ c, p.contents = some c → c.length < 2 ^ 24) →
      ∀ all srcR, w'.writer.out = wI.out ++ all → Streams false srcR all [] →
      ∃ pR, AsyncProtocol.new P prof magic .responder rngR gR dR srcR wR = .ok pR ∧
        ∀ es, ∃ r' outs, pR.reader.run P prof es = (r', outs) ∧
          (payloads outs).map Payload.view <+: ps.map Payload.view ∧
          (∀ x ∈ outs, (∃ p, x = .ok p) ∨ ∃ k, x = .err (.fromIo k)) ∧
          (pR.reader.reader.size + ps.length ≤ polls es →
            (payloads outs).map Payload.view = ps.map Payload.view)) ∧
    (∀ srcR moreR tailR kR, EndsWith false tailR kR →
      Streams false srcR (wireI P magic rngI rngR gI dI ++ moreR) tailR →
      ∃ pR, AsyncProtocol.new P prof magic .responder rngR gR dR srcR wR = .ok pR ∧
      ∀ ps w' rs, pR.writer.writeMany .async P prof ps = (w', rs) → (∀ x ∈ rs, x = .ok ()) →
      (∀ p ∈ ps, ∀ c, p.contents = some c → c.length < 2 ^ 24) →
      ∀ all srcI, w'.writer.out = wR.out ++ all → Streams false srcI all [] →
      ∃ pI, AsyncProtocol.new P prof magic .initiator rngI gI dI srcI wI = .ok pI ∧
        ∀ es, ∃ r' outs, pI.reader.run P prof es = (r', outs) ∧
          (payloads outs).map Payload.view <+: ps.map Payload.view ∧
          (∀ x ∈ outs, (∃ p, x = .ok p) ∨ ∃ k, x = .err (.fromIo k)) ∧
          (pI.reader.reader.size + ps.length ≤ polls es →
            (payloads outs).map Payload.view = ps.map Payload.view)) := by
  obtain ⟨iI, iR, oI, oR, hm1, hm2, fI, fR, -⟩ := honest_sessions hP H
  have deliver : ∀ {o : OutboundCipher} {i : InboundCipher} {s : AsyncSession} {ps : List Payload}
      {o' : OutboundCipher} {sent : Bytes}, Matching o i → Sent P prof o ps o' sent →
      (∀ p ∈ ps, ∀ c, p.contents = some c → c.length < 2 ^ 24) →
      SessStreams asyncAbs s sent [] → ∀ es, ∃ r' outs,
        AsyncReader.run P prof ⟨i, s, .initReadingLength⟩ es = (r', outs) ∧
          (payloads outs).map Payload.view <+: ps.map Payload.view ∧
          (∀ x ∈ outs, (∃ p, x = .ok p) ∨ ∃ k, x = .err (.fromIo k)) ∧
          (s.size + ps.length ≤ polls es →
            (payloads outs).map Payload.view = ps.map Payload.view) := by
    intro o i s ps o' sent hm hS hsize hst es
    have hrem := async_remaining hst
    simp only [Source.bytes, List.append_nil] at hrem
    obtain ⟨ms, h1, h2⟩ := sent_backlog hS hsize
    have hlen : ms.length = ps.length := by simpa using (congrArg List.length h1).symm
    obtain ⟨r', outs, done, rest, g1, g2, g3, g4, g5, g6⟩ := run_inv (prof := prof) hP es
      ⟨i, s, .initReadingLength⟩ ms ⟨rfl, by omega, o, hm, by simpa [hrem] using h2⟩
    refine ⟨r', outs, g1, ?_, g5, fun hb => ?_⟩
    · rw [g3, h1, g2, List.map_append]
      exact List.prefix_append _ _
    · have : rest = [] := g6 (by simp only at hb ⊢; omega)
      rw [g3, h1, g2, this, List.append_nil]
  have heof : EndsWith false [] .unexpectedEof := .inl ⟨rfl, rfl⟩
  constructor
  · intro srcI moreI tailI kI heI hsI
    obtain ⟨w1, log1, s1, h1, -, ho1, -⟩ := fI asyncApi asyncAbs wI srcI tailI kI moreI hwI heI hsI
    refine ⟨⟨⟨iI, s1, .initReadingLength⟩, ⟨oI, w1⟩⟩, by simp only [AsyncProtocol.new, h1], ?_⟩
    intro ps w' rs hw hok hsize all srcR hall hsR
    obtain ⟨sent, hsent⟩ : w1.out <+: w'.writer.out := by
      have := writeMany_out (P := P) (prof := prof) .async ps ⟨oI, w1⟩
      rwa [hw] at this
    have hS := sent_of_ok .async ps hw hok hsent.symm
    have : all = wireI P magic rngI rngR gI dI ++ sent := by
      rw [← hsent, ho1, List.append_assoc] at hall
      exact (List.append_cancel_left hall).symm
    subst this
    obtain ⟨w2, log2, s2, h2, -, -, st⟩ := fR asyncApi asyncAbs wR srcR [] _ sent hwR heof hsR
    exact ⟨⟨⟨iR, s2, .initReadingLength⟩, ⟨oR, w2⟩⟩, by simp only [AsyncProtocol.new, h2],
      deliver hm1 hS hsize st⟩
  · intro srcR moreR tailR kR heR hsR
    obtain ⟨w1, log1, s1, h1, -, ho1, -⟩ := fR asyncApi asyncAbs wR srcR tailR kR moreR hwR heR hsR
    refine ⟨⟨⟨iR, s1, .initReadingLength⟩, ⟨oR, w1⟩⟩, by simp only [AsyncProtocol.new, h1], ?_⟩
    intro ps w' rs hw hok hsize all srcI hall hsI
    obtain ⟨sent, hsent⟩ : w1.out <+: w'.writer.out := by
      have := writeMany_out (P := P) (prof := prof) .async ps ⟨oR, w1⟩
      rwa [hw] at this
    have hS := sent_of_ok .async ps hw hok hsent.symm
    have : all = wireR P magic rngI rngR gR dR ++ sent := by
      rw [← hsent, ho1, List.append_assoc] at hall
      exact (List.append_cancel_left hall).symm
    subst this
    obtain ⟨w2, log2, s2, h2, -, -, st⟩ := fI asyncApi asyncAbs wI srcI [] _ sent hwI heof hsI
    exact ⟨⟨⟨iI, s2, .initReadingLength⟩, ⟨oI, w2⟩⟩, by simp only [AsyncProtocol.new, h2],
      deliver hm2 hS hsize st⟩

/-- Non-vacuity of the end-to-end theorems: `sample_pair` is an honest pair, perfect sinks are
reliable, and the initiator's writes succeed. -/
example : HonestPair toy .debug [1, 2, 3, 4] (leBytes 32 77) (leBytes 32 99)
      (some [42, 42]) none (some [[1, 2, 3], []]) none ∧
    Sink.Reliable true ⟨[], [], []⟩ ∧
    (match SyncProtocol.new toy .debug [1, 2, 3, 4] .initiator (leBytes 32 77) (some [42, 42])
        (some [[1, 2, 3], []])
        [.data (wireR toy [1, 2, 3, 4] (leBytes 32 77) (leBytes 32 99) none none)] ⟨[], [], []⟩ with
      | .ok p => (p.writer.writeMany .sync toy .debug [.genuine [1], .decoy [2, 3]]).2 == [.ok (), .ok ()]
      | _ => false) = true :=
  ⟨sample_pair, ⟨by simp, by simp⟩, by decide +kernel⟩

end Bip324
