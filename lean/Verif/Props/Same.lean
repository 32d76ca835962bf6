import Verif.Props.Differential
import Verif.Props.EndToEnd

/-!
# C92: a program has the same conversation with the blocking and with the asynchronous API
-/

namespace Bip324

variable {P : Prims} {prof : Profile} {me : Peer} {magic : Bytes} {role : Role}

theorem FSStream.At.unique {k : Bytes} {n : Nat} {c c' : FSStream} (h : c.At P k n) (h' : c'.At P k n) : c = c' := by
  obtain ⟨a1, a2, a3⟩ := h
  obtain ⟨b1, b2, b3⟩ := h'
  cases c; cases c'
  simp_all

theorem FSAead.At.unique {k : Bytes} {n : Nat} {c c' : FSAead} (h : c.At P k n) (h' : c'.At P k n) : c = c' := by
  obtain ⟨a1, a2⟩ := h
  obtain ⟨b1, b2⟩ := h'
  cases c; cases c'
  simp_all

theorem InboundCipher.At.unique {kL kP : Bytes} {n : Nat} {i i' : InboundCipher} (h : i.At P kL kP n) (h' : i'.At P kL kP n) : i = i' := by
  have e1 := h.1.unique h'.1
  have e2 := h.2.unique h'.2
  cases i; cases i'
  simp_all

theorem OutboundCipher.At.unique {kL kP : Bytes} {n : Nat} {o o' : OutboundCipher} (h : o.At P kL kP n) (h' : o'.At P kL kP n) : o = o' := by
  have e1 := FSStream.At.unique h.1 h'.1
  have e2 := FSAead.At.unique h.2 h'.2
  cases o; cases o'
  simp_all

/-- The packets before the end of the handshake have 20 bytes or more each. -/
theorem judgePackets_rest (hP : Lawful P) {r : Spec.Rules} {kL kP : Bytes} {n : Nat} {aad bs : Bytes} {v : Spec.Verdict}
    (h : Spec.JudgePackets r P kL kP n aad bs v) : ∀ {next : Nat} {rest : Bytes}, v = .complete next rest →
    20 * next + rest.length ≤ 20 * n + bs.length ∧ rest <:+ bs := by
  induction h with
  | waits | tooBig | forged => intro next rest h; cases h
  | @decoy n aad header contents rest v h1 h2 h3 h4 ih =>
    intro next rest' hv
    obtain ⟨h5, h6⟩ := ih hv
    rw [List.length_append, rawPacket_length hP]
    exact ⟨by omega, h6.trans (List.suffix_append _ _)⟩
  | @version n aad header contents rest h1 h2 h3 =>
    intro next rest' hv
    cases hv
    rw [List.length_append, rawPacket_length hP]
    exact ⟨by omega, List.suffix_append _ _⟩

theorem judge_rest (hP : Lawful P) {r : Spec.Rules} {keys : Bytes × Bytes × Bytes} {bs : Bytes} {next : Nat} {rest : Bytes}
    (h : Spec.Judge r P keys bs (.complete next rest)) : 20 * next + rest.length ≤ bs.length ∧ rest <:+ bs := by
  generalize hv : Spec.Verdict.complete next rest = v at h
  cases h with
  | waits => cases hv
  | noTerminator => cases hv
  | garbage _ _ h =>
    obtain ⟨h1, h2⟩ := judgePackets_rest hP h hv.symm
    refine ⟨?_, h2.trans (List.suffix_append _ _)⟩
    simp only [List.length_append]
    omega

/-- C92, the handshake: from the same stream - cut differently, with the same end - both APIs have sent the same bytes and come to the
same error or to the same ciphers and the same bytes left over. -/
theorem C92_handshake (hP : Lawful P) (hme : Ready P prof me) {readerS tailS readerA tailA : Source} {k : ErrorKind} {writerS writerA : Sink}
    (hwS : writerS.Reliable true) (hwA : writerA.Reliable false) (heS : EndsWith true tailS k) (heA : EndsWith false tailA k) {bs : Bytes}
    (hn : bs.length < 2 ^ 36) (hsS : Streams false readerS bs tailS) (hsA : Streams false readerA bs tailA) :
    ∃ sent wS wA logS logA rS rA,
      handshake syncApi P prof magic role me.rng me.garbage me.decoys readerS writerS = (wS, logS, rS) ∧
      handshake asyncApi P prof magic role me.rng me.garbage me.decoys readerA writerA = (wA, logA, rA) ∧
      wS.out = writerS.out ++ sent ∧ wA.out = writerA.out ++ sent ∧
      ((∃ e, rS = .err e ∧ rA = .err e) ∨
        ∃ i o sS sA rest kL kP next, rS = .ok (i, o, sS) ∧ rA = .ok (i, o, sA) ∧ rest <:+ bs ∧
          SessStreams syncAbs sS rest tailS ∧ SessStreams asyncAbs sA rest tailA ∧
          i.At P kL kP next ∧ 20 * next + rest.length ≤ bs.length) := by
  obtain ⟨wS, logS, rS, hS, a1, a2, a3⟩ := handshake_verdict (magic := magic) (role := role) syncAbs hP hme.key hme.garbage hme.decoys hwS heS hn hsS
  obtain ⟨wA, logA, rA, hA, b1, b2, b3⟩ := handshake_verdict (magic := magic) (role := role) asyncAbs hP hme.key hme.garbage hme.decoys hwA heA hn hsA
  by_cases h64 : bs.length < 64
  · obtain ⟨o1, rfl⟩ := a1 h64
    obtain ⟨o2, rfl⟩ := b1 h64
    exact ⟨_, wS, wA, logS, logA, _, _, hS, hA, o1, o2, .inl ⟨_, rfl, rfl⟩⟩
  by_cases hv1 : bs.take 4 = magic
  · obtain ⟨o1, rfl⟩ := a2 (by omega) hv1
    obtain ⟨o2, rfl⟩ := b2 (by omega) hv1
    exact ⟨_, wS, wA, logS, logA, _, _, hS, hA, o1, o2, .inl ⟨_, rfl, rfl⟩⟩
  obtain ⟨o1, v, v1, f1⟩ := a3 (by omega) hv1
  obtain ⟨o2, v', v2, f2⟩ := b3 (by omega) hv1
  obtain rfl := judge_unique hP v1 v2
  refine ⟨_, wS, wA, logS, logA, _, _, hS, hA, o1, o2, ?_⟩
  cases v with
  | complete next rest =>
    right
    obtain ⟨i, o, s, rfl, x1, x2, x3⟩ := f1
    obtain ⟨i', o', s', rfl, y1, y2, y3⟩ := f2
    obtain rfl := x1.unique y1
    obtain rfl := OutboundCipher.At.unique x2 y2
    obtain ⟨hl, hsuf⟩ := judge_rest hP v1
    rw [List.length_drop] at hl
    exact ⟨i, o, s, s', rest, _, _, next, rfl, rfl, hsuf.trans (List.drop_suffix _ _), x3, y3, x1, by omega⟩
  | waits | noTerminator | tooBig | forged =>
    left
    obtain ⟨e, h1, rfl⟩ := f1
    obtain ⟨e', h2, rfl⟩ := f2
    rw [h1] at h2
    obtain rfl := Option.some.inj h2
    exact ⟨e, rfl, rfl⟩

/-- C92, from the first byte to the last message.  Both APIs fail with the same error; or the reads of the blocking API return the
messages `ms` and then the error `e`, and those of the asynchronous API, with any polls and cancellations, messages of `ms'`, which begins
with `ms` and is `ms` unless `e` is that a packet is too big for the blocking API; after enough polls all of them, and with an error that
a packet is not authentic if and only if that is `e`. -/
theorem C92_conversation (hP : Lawful P) (hme : Ready P prof me) {readerS tailS readerA tailA : Source} {k : ErrorKind}
    {writerS writerA : Sink} (hwS : writerS.Reliable true) (hwA : writerA.Reliable false) (heS : EndsWith true tailS k)
    (heA : EndsWith false tailA k) (hq : tailA.bytes = []) {bs : Bytes} (hn : bs.length < 2 ^ 35) (hsS : Streams false readerS bs tailS)
    (hsA : Streams false readerA bs tailA) :
    (∃ e, SyncProtocol.new P prof magic role me.rng me.garbage me.decoys readerS writerS = .err e ∧
      AsyncProtocol.new P prof magic role me.rng me.garbage me.decoys readerA writerA = .err e) ∨
    ∃ pS pA, SyncProtocol.new P prof magic role me.rng me.garbage me.decoys readerS writerS = .ok pS ∧
      AsyncProtocol.new P prof magic role me.rng me.garbage me.decoys readerA writerA = .ok pA ∧
      ∃ (ms ms' : List (UInt8 × Bytes)) (e : ProtocolError), ms <+: ms' ∧ (e ≠ .internal .packetTooBig → ms = ms') ∧
        (pS.reader.readMany P prof (ms.length + 1)).2 = ms.map (fun m => .ok (delivered m)) ++ [.err e] ∧
        ∀ es r' xs, es.length < 2 ^ 31 → pA.reader.run P prof es = (r', xs) →
          payloads xs <+: ms'.map delivered ∧
          (pA.reader.reader.size + ms'.length ≤ polls es → payloads xs = ms'.map delivered) ∧
          (∀ x ∈ xs, (∃ p, x = .ok p) ∨ (∃ k, x = .err (.fromIo k)) ∨ x = .err (.internal .decryption)) ∧
          (e ≠ .internal .packetTooBig → e ≠ .internal .decryption → .err (.internal .decryption) ∉ xs) ∧
          (pA.reader.reader.size + ms'.length < polls es → e = .internal .decryption → .err (.internal .decryption) ∈ xs) := by
  obtain ⟨sent, wS, wA, logS, logA, rS, rA, hS, hA, -, -, h⟩ :=
    C92_handshake (magic := magic) (role := role) hP hme hwS hwA heS heA (by omega) hsS hsA
  unfold SyncProtocol.new AsyncProtocol.new
  rw [hS, hA]
  rcases h with ⟨e, rfl, rfl⟩ | ⟨i, o, sS, sA, rest, kL, kP, next, rfl, rfl, -, x3, y3, hat, hl⟩
  · exact .inl ⟨e, rfl, rfl⟩
  right
  refine ⟨_, _, rfl, rfl, ?_⟩
  obtain ⟨ms, v, e, j1, he, j2⟩ := C62_session_sync (prof := prof) hP heS rest (r := ⟨i, sS⟩) hat (by omega) x3
  obtain ⟨ms', v', j3, -⟩ := C62_session_total hP (2 ^ 24 - 1) kL kP next rest
  obtain ⟨g1, g2, g3⟩ := C62_session_agree hP j1 j3
  have hbig : e ≠ .internal .packetTooBig → v ≠ .tooBig := by
    rintro h rfl
    exact h (Option.some.inj he).symm
  refine ⟨ms, ms', e, g1, fun h => (g2 (hbig h)).1, j2, fun es r' xs hes hrun => ?_⟩
  have hr : AsyncReader.Reads P kL kP next rest ⟨i, sA, .initReadingLength⟩ := by
    have := async_remaining y3
    rw [hq, List.append_nil] at this
    exact ⟨rfl, by omega, hat, by simp [this]⟩
  obtain ⟨j, hj, k1, k2, k3, k4⟩ := C62_session_async (prof := prof) hP es hr (by omega) hrun j3
  refine ⟨?_, ?_, ?_, ?_, ?_⟩
  · rw [k1, List.map_take]; exact List.take_prefix _ _
  · intro h; rw [k1, k3 h, List.take_length]
  · intro x hx
    rcases k2 x hx with h | h | ⟨h, -⟩
    · exact .inl h
    · exact .inr (.inl h)
    · exact .inr (.inr h)
  · intro h1 h2 hx
    rcases k2 _ hx with ⟨p, h⟩ | ⟨k, h⟩ | ⟨-, h, -⟩
    · cases h
    · cases h
    · obtain ⟨-, rfl⟩ := g2 (hbig h1)
      rw [h] at he
      exact h2 (Option.some.inj he).symm
  · intro h1 h2
    refine k4 h1 ?_
    have hv : v = .forged := by
      rw [h2] at he
      cases v <;> simp [Spec.Verdict.error, ProtocolError.fromIo] at he
      rfl
    obtain ⟨-, rfl⟩ := g2 (by rw [hv]; simp)
    exact hv

/-- C92, writing: the same calls send the same bytes with the same results and leave the same cipher, also those that panic. -/
theorem C92_writes (ps : List Payload) : ∀ {o : OutboundCipher} {sS sA : Sink}, sS.Reliable true → sA.Reliable false →
    ∃ o' sS' sA' rs sent, Writer.writeMany .sync P prof ⟨o, sS⟩ ps = (⟨o', sS'⟩, rs) ∧
      Writer.writeMany .async P prof ⟨o, sA⟩ ps = (⟨o', sA'⟩, rs) ∧
      sS'.out = sS.out ++ sent ∧ sA'.out = sA.out ++ sent ∧ ∀ r ∈ rs, r = .ok () ∨ r = .panic := by
  induction ps with
  | nil => exact fun {o sS sA} _ _ => ⟨o, sS, sA, [], [], rfl, rfl, by simp, by simp, by simp⟩
  | cons p ps ih =>
    intro o sS sA hS hA
    have one : ∃ o' sS' sA' r sent, Writer.write .sync P prof ⟨o, sS⟩ p = (⟨o', sS'⟩, r) ∧
        Writer.write .async P prof ⟨o, sA⟩ p = (⟨o', sA'⟩, r) ∧ sS'.Reliable true ∧ sA'.Reliable false ∧
        sS'.out = sS.out ++ sent ∧ sA'.out = sA.out ++ sent ∧ (r = .ok () ∨ r = .panic) := by
      cases hv : p.view with
      | none =>
        have hn : ∀ t c, ¬ (p.packetType = some t ∧ p.contents = some c) := fun t c h => by
          rw [Payload.view_some.2 h] at hv; cases hv
        refine ⟨o, sS, sA, .panic, [], ?_, ?_, hS, hA, by simp, by simp, .inr rfl⟩
        · unfold Writer.write Writer.writeSync
          rcases ht : p.packetType with _ | t <;> rcases hc : p.contents with _ | c <;> first | rfl | exact absurd ⟨ht, hc⟩ (hn t c)
        · unfold Writer.write Writer.writeAsync
          rcases ht : p.packetType with _ | t <;> rcases hc : p.contents with _ | c <;> first | rfl | exact absurd ⟨ht, hc⟩ (hn t c)
      | some tc =>
        obtain ⟨t, c⟩ := tc
        rw [Writer.write_eq .sync _ hv, Writer.write_eq .async _ hv]
        simp only
        rcases o.encryptToVec P prof c t none with ⟨o', r⟩
        cases r with
        | ok pkt =>
          obtain ⟨w1, e1, f1, g1⟩ := send_reliable hS pkt
          obtain ⟨w2, e2, f2, g2⟩ := send_reliable hA pkt
          simp only [Flavour.retry, e1, e2]
          exact ⟨o', w1, w2, .ok (), pkt, rfl, rfl, g1, g2, f1, f2, .inl rfl⟩
        | err e => exact ⟨o', sS, sA, .panic, [], rfl, rfl, hS, hA, by simp, by simp, .inr rfl⟩
        | panic => exact ⟨o', sS, sA, .panic, [], rfl, rfl, hS, hA, by simp, by simp, .inr rfl⟩
    obtain ⟨o1, s1, s2, r, b, h1, h2, h3, h4, h5, h6, h7⟩ := one
    obtain ⟨o2, t1, t2, rs, c, k1, k2, k3, k4, k5⟩ := ih (o := o1) h3 h4
    refine ⟨o2, t1, t2, r :: rs, b ++ c, ?_, ?_, ?_, ?_, ?_⟩
    · simp only [Writer.writeMany, h1, k1]
    · simp only [Writer.writeMany, h2, k2]
    · rw [k3, h5, List.append_assoc]
    · rw [k4, h6, List.append_assoc]
    · intro x hx
      rcases List.mem_cons.1 hx with rfl | hx
      · exact h7
      · exact k5 x hx

/-! ## Cases -/

/-- A stream that both APIs take to its end, cut differently: the key, garbage, terminator and version, two messages, part of a third. -/
private def sameStream : Bytes := sampleStream fun keys => [9, 9] ++ keys.2.2 ++
  (Spec.rawPacket toy keys.1 keys.2.1 0 0 [9, 9] [] ++ (Spec.rawPacket toy keys.1 keys.2.1 1 0 [] [5, 6] ++
    (Spec.rawPacket toy keys.1 keys.2.1 2 0x80 [] [7] ++ [1, 2])))

/-- What each API makes of it: the messages of three reads. -/
private def sameSync : Option (List (Option Bytes)) :=
  match SyncProtocol.new toy .debug [1, 2, 3, 4] .initiator sampleMe.rng sampleMe.garbage sampleMe.decoys
      [.data (sameStream.take 70), .data (sameStream.drop 70)] ⟨[], [], []⟩ with
  | .ok p => some ((p.reader.readMany toy .debug 3).2.map fun x => match x with | .ok m => m.contents | _ => none)
  | _ => none

private def sameAsync : Option (List (Option Bytes)) :=
  match AsyncProtocol.new toy .debug [1, 2, 3, 4] .initiator sampleMe.rng sampleMe.garbage sampleMe.decoys
      [.data (sameStream.take 100), .pending, .data ((sameStream.drop 100).take 20), .data (sameStream.drop 120)] ⟨[], [], []⟩ with
  | .ok p => some ((p.reader.run toy .debug [.poll, .cancel, .poll, .poll, .poll, .poll]).2.map fun x =>
      match x with | .ok m => m.contents | _ => none)
  | _ => none

example : sameSync = some [some [5, 6], some [7], none] ∧ (sameAsync.map fun xs => xs.filterMap id) = some [[5, 6], [7]] := by
  decide +kernel

example : Streams false [.data (sameStream.take 70), .data (sameStream.drop 70)] sameStream [] ∧ EndsWith true [] .unexpectedEof ∧
    Streams false [.data (sameStream.take 100), .pending, .data ((sameStream.drop 100).take 20), .data (sameStream.drop 120)] sameStream [] := by
  have hd : ∀ {x : Bytes}, x ≠ [] → REv.data x = .pending ∨ (∃ b bs, REv.data x = .data (b :: bs)) ∨
      (false = true ∧ REv.data x = .fail .interrupted) := by
    intro x hx
    cases x with
    | nil => exact absurd rfl hx
    | cons b bs => exact .inr (.inl ⟨b, bs, rfl⟩)
  refine ⟨⟨_, ?_, (List.append_nil _).symm, by decide +kernel⟩, .inl ⟨rfl, rfl⟩, ⟨_, ?_, (List.append_nil _).symm, by decide +kernel⟩⟩
  · intro e he
    simp only [List.mem_cons, List.not_mem_nil, or_false] at he
    rcases he with rfl | rfl <;> exact hd (by decide +kernel)
  · intro e he
    simp only [List.mem_cons, List.not_mem_nil, or_false] at he
    rcases he with rfl | rfl | rfl | rfl
    · exact hd (by decide +kernel)
    · exact .inl rfl
    all_goals exact hd (by decide +kernel)

end Bip324
