import Verif.Props.Transcript

/-!
# C49: an attacker on the stream

The attacker may drop, repeat, reorder, insert and change bytes at will; what it cannot do is forge a packet:
every sealed packet that occurs in the bytes it delivers, under a packet number still to come, is one that the
sender has made with that number.
-/

namespace Bip324

variable {P : Prims} {prof : Profile}

namespace Spec

/-- The sender has sealed `sent[0]`, `sent[1]`, ... (header, contents) under the packet numbers `n`, `n + 1`,
...; no part of `bs` opens to something (a packet holds at least its header) under one of the `k` packet numbers
from `n` on, except to what was sealed under that number. -/
def Unforged (P : Prims) (kP : Bytes) (n k : Nat) (sent : List (UInt8 × Bytes)) (bs : Bytes) : Prop :=
  ∀ j < k, ∀ before ct tag after plain, bs = before ++ ct ++ tag ++ after → tag.length = 16 →
    P.openC (packetKey P kP ((n + j) / interval)) (packetNonce (n + j)) [] ct tag = some plain → plain ≠ [] →
    ∃ m, sent[j]? = some m ∧ plain = m.1 :: m.2

end Spec

theorem carries_stream (kL kP : Bytes) (ms : List (UInt8 × Bytes)) : ∀ (n : Nat) (rest : Bytes),
    Spec.Carries P kP n ms (Spec.packetStream P kL kP n [] ms ++ rest) := by
  induction ms with
  | nil => intro n rest; trivial
  | cons m ms ih =>
    intro n rest
    refine ⟨Spec.xor (Spec.le 3 m.2.length) (Spec.lengthMask P kL n), _, ?_, ih (n + 1) rest⟩
    rw [packetStream_append, rawPacket_eq, List.append_assoc]

/-- What the bytes carry, under the assumption, is a front part of what was sent. -/
theorem carries_prefix (hP : Lawful P) (kP : Bytes) (ms : List (UInt8 × Bytes)) :
    ∀ (n k : Nat) (sent : List (UInt8 × Bytes)) (bs front : Bytes), Spec.Unforged P kP n k sent (front ++ bs) →
      ms.length ≤ k → Spec.Carries P kP n ms bs → ms <+: sent := by
  induction ms with
  | nil => intros; exact List.nil_prefix
  | cons m ms ih =>
    intro n k sent bs front hu hk hc
    obtain ⟨before, after, rfl, hrest⟩ := hc
    rw [List.length_cons] at hk
    have hseal : P.openC (Spec.packetKey P kP ((n + 0) / Spec.interval)) (Spec.packetNonce (n + 0)) []
        (P.sealC (Spec.packetKey P kP (n / Spec.interval)) (Spec.packetNonce n) [] (m.1 :: m.2)).1
        (P.sealC (Spec.packetKey P kP (n / Spec.interval)) (Spec.packetNonce n) [] (m.1 :: m.2)).2
        = some (m.1 :: m.2) := (hP.open_iff ..).2 rfl
    obtain ⟨m', hm', he⟩ := hu 0 (by omega) (front ++ before) _ _ after _
      (by unfold Spec.sealedPart; simp only [List.append_assoc]) (hP.tag_length ..) hseal (List.cons_ne_nil _ _)
    simp only [List.cons.injEq] at he
    have hmm : m' = m := Prod.ext he.1.symm he.2.symm
    subst hmm
    cases sent with
    | nil => simp at hm'
    | cons s sent =>
      simp only [List.getElem?_cons_zero, Option.some.injEq] at hm'
      subst hm'
      have : ms <+: sent := by
        refine ih (n + 1) (k - 1) sent after
          (front ++ before ++ Spec.sealedPart P kP n s.1 [] s.2) ?_ (by omega) hrest
        intro j hj before' ct tag after' plain hb ht ho hne
        obtain ⟨m', hm', he⟩ := hu (j + 1) (by omega) before' ct tag after' plain
          (by rw [← hb]; simp only [List.append_assoc]) ht
          (by rw [show n + (j + 1) = n + 1 + j by omega]; exact ho) hne
        exact ⟨m', by simpa using hm', he⟩
      exact (List.cons_prefix_cons).2 ⟨rfl, this⟩

theorem Spec.Carries.append {kP : Bytes} {ms : List (UInt8 × Bytes)} : ∀ {n : Nat} {bs : Bytes},
    Spec.Carries P kP n ms bs → ∀ rest, Spec.Carries P kP n ms (bs ++ rest) := by
  induction ms with
  | nil => intros; trivial
  | cons m ms ih =>
    rintro n bs ⟨before, after, rfl, h⟩ rest
    exact ⟨before, after ++ rest, by simp only [List.append_assoc], ih h rest⟩

theorem readMany_length (k : Nat) : ∀ r : SyncReader, (r.readMany P prof k).2.length = k := by
  induction k with
  | zero => intro r; rfl
  | succ k ih =>
    intro r
    simp only [SyncReader.readMany, List.length_cons, ih]

theorem payloads_length (xs : List (Outcome ProtocolError Payload)) : (payloads xs).length ≤ xs.length := by
  induction xs with
  | nil => exact Nat.le_refl _
  | cons x xs ih => cases x <;> simp only [payloads, List.length_cons] <;> omega

theorem run_length (es : List ReadEvent) : ∀ r : AsyncReader, (r.run P prof es).2.length ≤ es.length := by
  induction es with
  | nil => intro r; exact Nat.le_refl _
  | cons e es ih =>
    intro r
    cases e with
    | cancel => exact Nat.le_succ_of_le (ih r)
    | poll =>
      unfold AsyncReader.run
      cases h1 : r.poll P prof with
      | mk r1 x =>
      cases x with
      | pending => exact Nat.le_succ_of_le (ih r1)
      | ready x =>
        have := ih r1
        cases h2 : r1.run P prof es with
        | mk r2 ys =>
        rw [h2] at this
        simp only [h2, List.length_cons]
        exact Nat.succ_le_succ this

/-- C49, blocking API: whatever the attacker delivers, in whatever pieces and with whatever errors in between,
and however often the application reads on after failed reads, the payloads returned are the first payloads
sent, in order: nothing is lost, repeated, reordered, changed or inserted in between. -/
theorem C49_sync (hP : Lawful P) {kP : Bytes} {n k : Nat} {r r' : SyncReader}
    {xs : List (Outcome ProtocolError Payload)} {sent : List (UInt8 × Bytes)}
    (hat : r.cipher.packetCipher.At P kP n) (hn : n + k < 2 ^ 64)
    (hu : Spec.Unforged P kP n k sent r.reader.bytes) (hr : r.readMany P prof k = (r', xs)) :
    ∃ l, l <+: sent ∧ payloads xs = l.map delivered := by
  obtain ⟨ms, taken, h1, -, h2, h3, -⟩ := C46_sync_after_errors hP k hat hn hr
  have hcount : ms.length ≤ k := by
    have hl := payloads_length xs
    have hxs := readMany_length (P := P) (prof := prof) k r
    rw [hr] at hxs
    simp only at hxs
    rw [h1, List.length_map] at hl
    omega
  exact ⟨ms, carries_prefix hP kP ms n k sent r.reader.bytes [] hu hcount
    (by rw [h2]; exact h3.append _), h1⟩

/-- C49, asynchronous API, for every sequence of polls and cancellations. -/
theorem C49_async (hP : Lawful P) {kL kP : Bytes} {n : Nat} {r r' : AsyncReader} {es : List ReadEvent}
    {xs : List (Outcome ProtocolError Payload)} {sent : List (UInt8 × Bytes)}
    (hat : r.cipher.At P kL kP n) (hst : r.state = .initReadingLength) (hn : n + es.length < 2 ^ 32)
    (hu : Spec.Unforged P kP n es.length sent r.reader.remaining) (hr : r.run P prof es = (r', xs)) :
    ∃ l, l <+: sent ∧ payloads xs = l.map delivered := by
  obtain ⟨ms, rest, h1, -, -, h2, -⟩ := C46_async hP es (fresh_reads hat hst) hn hr
  have hcount : ms.length ≤ es.length := by
    have hl := payloads_length xs
    have hxs := run_length (P := P) (prof := prof) es r
    rw [hr] at hxs
    simp only at hxs
    rw [h1, List.length_map] at hl
    omega
  exact ⟨ms, carries_prefix hP kP ms n _ sent r.reader.remaining [] hu hcount
    (by rw [h2]; exact carries_stream kL kP ms n rest), h1⟩

/-- C49 in the terms of the application: if the sender wrote the payloads `ps`, what the reader's application
sees is a front part of what the sender's application wrote. -/
theorem C49_seen {ps : List (PacketType × Bytes)} {l : List (UInt8 × Bytes)}
    {xs : List (Outcome ProtocolError Payload)}
    (hl : l <+: ps.map (fun p => (p.1.toByte, p.2))) (hx : payloads xs = l.map delivered) :
    (payloads xs).map Payload.view <+: ps.map some := by
  have h : ∀ p : PacketType × Bytes, (delivered (p.1.toByte, p.2)).view = some p := by
    rintro ⟨t, c⟩
    exact view_decrypted t c
  rw [hx]
  have := (hl.map delivered).map Payload.view
  simp only [List.map_map] at this ⊢
  have e : (Payload.view ∘ delivered ∘ fun p : PacketType × Bytes => (p.1.toByte, p.2)) = some := funext h
  rw [e] at this
  exact this

/-! ## Non-vacuity -/

/-- The finitely many parts of `bs` to be looked at. -/
def unforgedCheck (P : Prims) (kP : Bytes) (n k : Nat) (sent : List (UInt8 × Bytes)) (bs : Bytes) : Bool :=
  (List.range k).all fun j => (List.range (bs.length + 1)).all fun a => (List.range (bs.length + 1 - a)).all fun b =>
    match P.openC (Spec.packetKey P kP ((n + j) / Spec.interval)) (Spec.packetNonce (n + j)) []
      ((bs.drop a).take b) ((bs.drop (a + b)).take 16) with
    | none => true
    | some plain => ((bs.drop (a + b)).take 16).length != 16 || plain.isEmpty ||
        match sent[j]? with
        | none => false
        | some m => plain == m.1 :: m.2

theorem unforged_of_check {kP : Bytes} {n k : Nat} {sent : List (UInt8 × Bytes)} {bs : Bytes}
    (h : unforgedCheck P kP n k sent bs = true) : Spec.Unforged P kP n k sent bs := by
  intro j hj before ct tag after plain hb ht ho hne
  unfold unforgedCheck at h
  rw [List.all_eq_true] at h
  have h1 := h j (List.mem_range.2 hj)
  rw [List.all_eq_true] at h1
  have hlen := congrArg List.length hb
  simp only [List.length_append] at hlen
  have h2 := h1 before.length (List.mem_range.2 (by omega))
  rw [List.all_eq_true] at h2
  have h3 := h2 ct.length (List.mem_range.2 (by omega))
  have e1 : (bs.drop before.length).take ct.length = ct := by
    rw [hb, List.append_assoc, List.append_assoc, drop_append_len _ _ rfl, take_append_len _ _ rfl]
  have e2 : (bs.drop (before.length + ct.length)).take 16 = tag := by
    rw [hb, List.append_assoc, ← List.length_append, drop_append_len _ _ rfl, take_append_len _ _ ht.symm]
  rw [e1, e2, ho] at h3
  have hne' : plain.isEmpty = false := by simpa using hne
  simp only [ht, hne', bne_self_eq_false, Bool.false_or] at h3
  cases hs : sent[j]? with
  | none => rw [hs] at h3; simp at h3
  | some m =>
    rw [hs] at h3
    exact ⟨m, rfl, by simpa using h3⟩

/-- Non-vacuity of C49: two packets; the attacker delivers the first packet twice, and, after an error,
the second one with a byte changed.  The reader, reading on after errors, returns the first payload only. -/
example :
    let sent : List (UInt8 × Bytes) := [(0, [1, 2, 3]), (0x80, [])]
    let p0 := Spec.rawPacket toy (leBytes 32 77) (leBytes 32 99) 0 0 [] [1, 2, 3]
    let p1 := Spec.rawPacket toy (leBytes 32 77) (leBytes 32 99) 1 0x80 [] []
    let r : SyncReader := ⟨sampleIn, ⟨[], false, [.data (p0 ++ p0), .fail .timedOut, .data (1 :: p1.drop 1)]⟩⟩
    r.cipher.At toy (leBytes 32 77) (leBytes 32 99) 0 ∧
    Spec.Unforged toy (leBytes 32 99) 0 3 sent r.reader.bytes ∧
    payloads (r.readMany toy .debug 3).2 = [delivered (0, [1, 2, 3])] :=
  ⟨sampleIn_at, unforged_of_check (by decide +kernel), by decide +kernel⟩

end Bip324
