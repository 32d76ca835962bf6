import Verif.Props.Transcript

/-!
# Taking readers and writers apart: C64

`into_inner` gives the cipher and the transport back, so that an application can go on by itself.  The blocking reader
and both writers have nothing else.  The asynchronous reader has: the part of a packet that a read has taken from the
transport when it was dropped or failed is not among the parts.
-/

namespace Bip324

variable {P : Prims} {prof : Profile}

/-! ## Specification -/

/-- What can be made of the two parts: a reader at the beginning of a packet. -/
def AsyncReader.resume (x : InboundCipher × AsyncSession) : AsyncReader := ⟨x.1, x.2, .initReadingLength⟩

/-- The number of bytes of the current packet that the reader has taken from the transport. -/
def AsyncReader.held (r : AsyncReader) : Nat :=
  match r.state with
  | .readingLength _ k => k
  | .readingPayload _ k => 3 + k

/-! ## Lemmas -/

/-- A reader that has taken nothing of a packet is as it was made. -/
def AsyncReader.Clean (r : AsyncReader) : Prop := r.held = 0 → r.state = .initReadingLength

theorem pollFill_grows (s : AsyncSession) (buf : Bytes) (k : Nat) :
    (∀ s' buf' k', pollFill s buf k = .pending s' buf' k' → k ≤ k' ∧ (k' = k → buf' = buf)) ∧
    (∀ s' buf' k' e, pollFill s buf k = .err s' buf' k' e → k ≤ k' ∧ (k' = k → buf' = buf)) := by
  fun_induction pollFill s buf k with
  | case1 s buf k hlt s' h => simp_all
  | case2 s buf k hlt s' e h => simp_all
  | case3 s buf k hlt s' h => simp_all
  | case4 s buf k hlt s' b bs h ih =>
    refine ⟨fun s2 b2 k2 h2 => ?_, fun s2 b2 k2 e h2 => ?_⟩
    · have := ih.1 _ _ _ h2
      simp only [List.length_cons] at this
      exact ⟨by omega, fun he => by omega⟩
    · have := ih.2 _ _ _ _ h2
      simp only [List.length_cons] at this
      exact ⟨by omega, fun he => by omega⟩
  | case5 s buf k hlt => simp

theorem clean_payload (c : InboundCipher) (s : AsyncSession) (buf : Bytes) (k : Nat) :
    AsyncReader.Clean ⟨c, s, .readingPayload buf k⟩ := by
  intro h
  have h : 3 + k = 0 := h
  omega

theorem pollPayload_clean (c : InboundCipher) (s : AsyncSession) (buf : Bytes) (k : Nat) :
    (AsyncReader.pollPayload P prof c s buf k).1.Clean := by
  unfold AsyncReader.pollPayload
  repeat' split
  all_goals first | exact clean_payload _ _ _ _ | exact fun _ => rfl

theorem poll_clean {r : AsyncReader} (h : r.Clean) (hno : (r.poll P prof).2 ≠ .ready .panic) :
    (r.poll P prof).1.Clean := by
  obtain ⟨c, s, st⟩ := r
  cases st with
  | readingPayload buf k => exact pollPayload_clean c s buf k
  | readingLength buf k =>
    obtain ⟨h1, h2⟩ := pollFill_grows s buf k
    unfold AsyncReader.poll at hno ⊢
    simp only at hno ⊢
    cases hf : pollFill s buf k with
    | pending s' b n =>
      obtain ⟨h3, h4⟩ := h1 _ _ _ hf
      simp only
      intro h0
      have h0 : n = 0 := h0
      have hk : k = 0 := by omega
      show DecryptState.readingLength b n = _
      rw [h4 (by omega), show n = k by omega]
      exact h hk
    | err s' b n e =>
      obtain ⟨h3, h4⟩ := h2 _ _ _ _ hf
      simp only
      intro h0
      have h0 : n = 0 := h0
      have hk : k = 0 := by omega
      show DecryptState.readingLength b n = _
      rw [h4 (by omega), show n = k by omega]
      exact h hk
    | full s' b n =>
      rw [hf] at hno
      simp only at hno ⊢
      cases hd : c.decryptPacketLen P prof b with
      | mk c' x =>
        rw [hd] at hno
        cases x with
        | panic => exact absurd rfl hno
        | err e =>
          exfalso
          unfold InboundCipher.decryptPacketLen at hd
          split at hd <;> simp at hd
        | ok l => exact pollPayload_clean _ _ _ _

theorem run_clean (hP : Lawful P) {kL kP : Bytes} (es : List ReadEvent) : ∀ {n : Nat} {bs : Bytes}
    {r : AsyncReader}, r.Reads P kL kP n bs → r.Clean → n + es.length < 2 ^ 32 → (r.run P prof es).1.Clean := by
  induction es with
  | nil => exact fun _ hc _ => hc
  | cons e es ih =>
    intro n bs r hr hc hn
    rw [List.length_cons] at hn
    cases e with
    | cancel => exact ih hr hc (by omega)
    | poll =>
      have hp := poll_sound (prof := prof) hP (by omega) r hr
      unfold AsyncReader.run
      cases h1 : r.poll P prof with
      | mk r1 x =>
      rw [h1] at hp
      have hc1 : x ≠ .ready .panic → r1.Clean := fun hx => by
        have := poll_clean (P := P) (prof := prof) hc (by rw [h1]; exact hx)
        rwa [h1] at this
      cases x with
      | pending => exact ih hp (hc1 (by simp)) (by omega)
      | ready x =>
        cases x with
        | panic => exact absurd hp id
        | err e => exact ih hp (hc1 (by simp)) (by omega)
        | ok p =>
          obtain ⟨header, contents, bs', rfl, -, -, hr1⟩ := hp
          exact ih hr1 (hc1 (by simp)) (by omega)

/-! ## C64 -/

/-- C64, asynchronous reader, between packets: whatever reads have been made, dropped and have failed, if the reader
has taken nothing of the next packet then the two parts are all there is: the reader made of them is the same reader. -/
theorem C64_lossless (hP : Lawful P) {kL kP : Bytes} {n : Nat} {r r' : AsyncReader} {es : List ReadEvent}
    {xs : List (Outcome ProtocolError Payload)} (hat : r.cipher.At P kL kP n) (hst : r.state = .initReadingLength)
    (hn : n + es.length < 2 ^ 32) (hr : r.run P prof es = (r', xs)) (hh : r'.held = 0) :
    AsyncReader.resume r'.intoInner = r' := by
  have hc := run_clean (prof := prof) hP es (fresh_reads hat hst) (fun _ => hst) hn
  rw [hr] at hc
  have hc := hc hh
  obtain ⟨c, s, st⟩ := r'
  have hc : st = .initReadingLength := hc
  subst hc
  rfl

/-- C64, asynchronous reader: a read that has returned a payload leaves nothing behind. -/
theorem C64_after_payload {r r' : AsyncReader} {p : Payload} (hr : r.poll P prof = (r', .ready (.ok p))) :
    r'.held = 0 ∧ AsyncReader.resume r'.intoInner = r' := by
  have key : ∀ c s buf k, AsyncReader.pollPayload P prof c s buf k = (r', .ready (.ok p)) →
      r'.held = 0 ∧ AsyncReader.resume r'.intoInner = r' := by
    intro c s buf k h
    unfold AsyncReader.pollPayload at h
    repeat' split at h
    all_goals simp only [Prod.mk.injEq, PollResult.ready.injEq, reduceCtorEq, and_false] at h
    obtain ⟨rfl, -⟩ := h
    exact ⟨rfl, rfl⟩
  unfold AsyncReader.poll at hr
  repeat' split at hr
  all_goals first
    | exact key _ _ _ _ hr
    | simp only [Prod.mk.injEq, PollResult.ready.injEq, reduceCtorEq, and_false] at hr

/-- C64, asynchronous reader, anywhere: of the stream that the reader was given, the packets that were delivered are
gone, then exactly `held` bytes are lost, and the transport has the rest.  The cipher part is the one for the next
packet; once three or more bytes are lost it has already taken its length. -/
theorem C64_lost (hP : Lawful P) {kL kP : Bytes} {n : Nat} {r r' : AsyncReader} {es : List ReadEvent}
    {xs : List (Outcome ProtocolError Payload)} (hat : r.cipher.At P kL kP n) (hst : r.state = .initReadingLength)
    (hn : n + es.length < 2 ^ 32) (hr : r.run P prof es = (r', xs)) :
    ∃ (ms : List (UInt8 × Bytes)) (lost : Bytes), payloads xs = ms.map delivered ∧
      r.reader.remaining = Spec.packetStream P kL kP n [] ms ++ (lost ++ r'.intoInner.2.remaining) ∧
      lost.length = r'.held ∧
      (r'.intoInner.1.At P kL kP (n + ms.length) ∨
        3 ≤ lost.length ∧ r'.intoInner.1.Half P kL kP (n + ms.length)) := by
  obtain ⟨ms, rest, h1, -, -, h4, h5⟩ := C46_async hP es (fresh_reads hat hst) hn hr
  obtain ⟨c, s, st⟩ := r'
  cases st with
  | readingLength buf k =>
    obtain ⟨a, b, hc, d⟩ := h5
    refine ⟨ms, buf.take k, h1, by rw [h4, d]; rfl, ?_, .inl hc⟩
    rw [List.length_take]
    show min k buf.length = k
    omega
  | readingPayload buf k =>
    obtain ⟨len, -, a, b, hc, d⟩ := h5
    have hl : (Spec.xor (Spec.le 3 len) (Spec.lengthMask P kL (n + ms.length)) ++ buf.take k).length = 3 + k := by
      rw [List.length_append, lengthBytes_length, List.length_take]
      omega
    refine ⟨ms, _, h1, by rw [h4, d, ← List.append_assoc (Spec.xor _ _)]; rfl, hl, .inr ⟨?_, hc⟩⟩
    rw [hl]
    omega

/-- C64, asynchronous reader: if nothing is lost then the cipher part has not been used for the next packet. -/
theorem C64_lost_none (hP : Lawful P) {kL kP : Bytes} {n : Nat} {r r' : AsyncReader} {es : List ReadEvent}
    {xs : List (Outcome ProtocolError Payload)} (hat : r.cipher.At P kL kP n) (hst : r.state = .initReadingLength)
    (hn : n + es.length < 2 ^ 32) (hr : r.run P prof es = (r', xs)) (hh : r'.held = 0) :
    ∃ ms : List (UInt8 × Bytes), payloads xs = ms.map delivered ∧
      r.reader.remaining = Spec.packetStream P kL kP n [] ms ++ r'.intoInner.2.remaining ∧
      r'.intoInner.1.At P kL kP (n + ms.length) := by
  obtain ⟨ms, lost, h1, h2, h3, h4⟩ := C64_lost hP hat hst hn hr
  have hl : lost = [] := List.length_eq_zero_iff.1 (h3.trans hh)
  subst hl
  refine ⟨ms, h1, h2, h4.resolve_right fun h => ?_⟩
  have := h.1
  simp at this

/-- C64, blocking reader: after reads that returned payloads, the two parts are the transport with exactly the bytes
after those packets, and the cipher for the next packet. -/
theorem C64_sync (hP : Lawful P) {kL kP : Bytes} {k n : Nat} {r r' : SyncReader}
    {xs : List (Outcome ProtocolError Payload)} (hat : r.cipher.At P kL kP n) (hn : n + k < 2 ^ 32)
    (hr : r.readMany P prof k = (r', xs)) (hok : ∀ x ∈ xs, ∃ p, x = .ok p) :
    ∃ ms : List (UInt8 × Bytes), xs = ms.map (fun m => .ok (delivered m)) ∧ ms.length = k ∧
      r.reader.bytes = Spec.packetStream P kL kP n [] ms ++ r'.intoInner.2.bytes ∧
      r'.intoInner.1.At P kL kP (n + k) ∧ SyncReader.mk r'.intoInner.1 r'.intoInner.2 = r' := by
  obtain ⟨ms, h1, h2, -, h4, h5⟩ := C46_sync hP k hat hn hr hok
  exact ⟨ms, h1, h2, h4, h5, rfl⟩

/-- C64, both writers: after writes that returned `Ok`, the two parts are the sink, which has been given exactly those
packets, and the cipher for the next packet. -/
theorem C64_writer (hP : Lawful P) {kL kP : Bytes} (f : Flavour) (ps : List Payload) : ∀ {n : Nat} {w w' : Writer}
    {xs : List (Outcome ProtocolError Unit)}, w.cipher.At P kL kP n → n + ps.length < 2 ^ 32 →
    w.writeMany f P prof ps = (w', xs) → (∀ x ∈ xs, x = .ok ()) →
    ∃ ms : List (PacketType × Bytes), ps.map Payload.view = ms.map some ∧
      w'.intoInner.2.out = w.writer.out ++ Spec.packetStream P kL kP n [] (ms.map fun m => (m.1.toByte, m.2)) ∧
      w'.intoInner.1.At P kL kP (n + ps.length) ∧ Writer.mk w'.intoInner.1 w'.intoInner.2 = w' := by
  induction ps with
  | nil =>
    intro n w w' xs hat hn hr hok
    simp only [Writer.writeMany, Prod.mk.injEq] at hr
    obtain ⟨rfl, rfl⟩ := hr
    exact ⟨[], rfl, by simp [Spec.packetStream, Writer.intoInner], hat, rfl⟩
  | cons p ps ih =>
    intro n w w' xs hat hn hr hok
    rw [List.length_cons] at hn
    obtain ⟨w1, x, xs', h1, h2, rfl⟩ := writeMany_cons hr
    obtain rfl := hok x (by simp)
    obtain ⟨t, c, pkt, hv, he, ho⟩ := write_ok_inv h1
    obtain ⟨o', hat', he'⟩ := hat.encryptToVec (prof := prof) hP (by omega) c t none
    rw [he] at he'
    simp only [Prod.mk.injEq, Outcome.ok.injEq] at he'
    rw [← he'.1] at hat'
    obtain ⟨ms, h3, h4, h5, h6⟩ := ih hat' (by omega) h2 (fun x hx => hok x (by simp [hx]))
    refine ⟨(t, c) :: ms, by simp [hv, h3], ?_, ?_, h6⟩
    · rw [h4, ho, he'.2, List.append_assoc]
      cases t <;> rfl
    · rw [List.length_cons, show n + (ps.length + 1) = n + 1 + ps.length by omega]; exact h5

/-! ## Non-vacuity and counterexamples -/

/-- Two packets.  (The second is chosen so that the lengths that are misread below are small, for the kernel's sake.) -/
def apartSent : Bytes :=
  Spec.packetStream toy (leBytes 32 77) (leBytes 32 99) 0 [] [(5, [1, 2, 3]), (0x49, [0x49, 0xbe])]

/-- The reader of the examples: what has arrived is cut off after `k` bytes. -/
def apartReader (k : Nat) : AsyncReader :=
  ⟨sampleIn, ⟨[], 0, [.data (apartSent.take k), .pending, .data (apartSent.drop k)]⟩, .initReadingLength⟩

/-- What comes of it if the application polls `k` times, takes the reader apart, makes a new one and polls on. -/
def apartRun (k polls : Nat) : Nat × List Payload :=
  let (r, xs) := (apartReader k).run toy .debug (List.replicate polls .poll)
  (r.held, payloads xs ++ payloads ((AsyncReader.resume r.intoInner).run toy .debug [.poll, .poll, .poll]).2)

/-- Taken apart between the packets, nothing is lost; and the hypotheses of C64 hold. -/
example :
    (apartReader 23).cipher.At toy (leBytes 32 77) (leBytes 32 99) 0 ∧
    (apartReader 23).state = .initReadingLength ∧
    apartRun 23 2 = (0, [delivered (5, [1, 2, 3]), delivered (0x49, [0x49, 0xbe])]) := by
  refine ⟨sampleIn_at, rfl, by decide +kernel⟩

/-- C64, the loss is real: an honest peer's packets, all of which arrive.  Taken apart after one or two bytes of the
second packet's length, or after its length, the second packet is never delivered. -/
theorem C64_counterexample :
    apartRun 24 2 = (1, [delivered (5, [1, 2, 3])]) ∧
    apartRun 25 2 = (2, [delivered (5, [1, 2, 3])]) ∧
    apartRun 26 2 = (3, [delivered (5, [1, 2, 3])]) := by
  decide +kernel

/-- The same polls without taking the reader apart deliver both. -/
example : ∀ k ∈ [24, 25, 26, 30],
    payloads ((apartReader k).run toy .debug [.poll, .poll, .poll]).2
      = [delivered (5, [1, 2, 3]), delivered (0x49, [0x49, 0xbe])] := by
  decide +kernel

/-- Non-vacuity of `C64_sync` and `C64_writer`. -/
example :
    let r : SyncReader := ⟨sampleIn, ⟨apartSent.take 7, false, [.data (apartSent.drop 7)]⟩⟩
    (r.readMany toy .debug 1).2 = [.ok (delivered (5, [1, 2, 3]))] ∧
    (r.readMany toy .debug 1).1.intoInner.2.bytes = apartSent.drop 23 := by
  decide +kernel

example :
    let w : Writer := ⟨sampleOut, ⟨[.accept 5, .accept 30], [], [9]⟩⟩
    (w.writeMany .async toy .debug [.genuine [1, 2], .decoy []]).2 = [.ok (), .ok ()] ∧
    sampleOut.At toy (leBytes 32 77) (leBytes 32 99) 0 := by
  exact ⟨by decide +kernel, FSStream.at_new _, FSAead.at_new _⟩

end Bip324
