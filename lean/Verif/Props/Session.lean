import Verif.Lemmas.AsyncRead
import Verif.Props.IoHandshake

/-!
# Properties of established sessions: C28, C29, C30, C31, C32, C34, C35
-/

namespace Bip324

variable {P : Prims} {prof : Profile}

/-! ## Using a session -/

/-- Write the payloads one after the other, whether or not the writes succeed; all results. -/
def Writer.writeMany (f : Flavour) (P : Prims) (prof : Profile) : Writer → List Payload →
    Writer × List (Outcome ProtocolError Unit)
  | w, [] => (w, [])
  | w, p :: ps =>
    match w.write f P prof p with
    | (w1, r) =>
      match Writer.writeMany f P prof w1 ps with
      | (w2, rs) => (w2, r :: rs)

/-- Call `read` that many times; all results. -/
def SyncReader.readMany (P : Prims) (prof : Profile) : SyncReader → Nat →
    SyncReader × List (Outcome ProtocolError Payload)
  | r, 0 => (r, [])
  | r, n + 1 =>
    match r.read P prof with
    | (r1, x) =>
      match SyncReader.readMany P prof r1 n with
      | (r2, xs) => (r2, x :: xs)

/-- What the caller of `read` sees: type and contents of the payload, if one is returned. -/
def seen : Outcome ProtocolError Payload → Option (PacketType × Bytes)
  | .ok p => p.view
  | _ => none

/-- What the application does with the future returned by the asynchronous `read`: poll it, or drop
it (a new one is made for the next poll). -/
inductive ReadEvent where
  | poll
  | cancel
deriving Repr, DecidableEq

/-- futures.rs:400-448 as seen by the application.  Dropping the future runs no code of this crate:
the future borrows `self` and owns only locals of `read` that hold no received data (`poll`), and the
`tokio` `Read` future, which owns nothing.  The list contains the results of the reads that
completed. -/
def AsyncReader.run (P : Prims) (prof : Profile) : AsyncReader → List ReadEvent →
    AsyncReader × List (Outcome ProtocolError Payload)
  | r, [] => (r, [])
  | r, .cancel :: es => AsyncReader.run P prof r es
  | r, .poll :: es =>
    match r.poll P prof with
    | (r1, .pending) => AsyncReader.run P prof r1 es
    | (r1, .ready x) =>
      match AsyncReader.run P prof r1 es with
      | (r2, xs) => (r2, x :: xs)

/-- The payloads among the results. -/
def payloads : List (Outcome ProtocolError Payload) → List Payload
  | [] => []
  | .ok p :: xs => p :: payloads xs
  | _ :: xs => payloads xs

theorem view_decrypted (t : PacketType) (c : Bytes) :
    Payload.view (.decrypted (t.toByte :: c)) = some (t, c) := by
  cases t <;> rfl

/-- A write that returns `Ok` has appended one packet. -/
theorem write_ok_inv {f : Flavour} {w w' : Writer} {p : Payload}
    (h : w.write f P prof p = (w', .ok ())) :
    ∃ t c pkt, p.view = some (t, c) ∧ w.cipher.encryptToVec P prof c t none = (w'.cipher, .ok pkt) ∧
      w'.writer.out = w.writer.out ++ pkt := by
  cases hv : p.view with
  | none => rw [Writer.write_none f w hv] at h; simp at h
  | some v =>
    obtain ⟨t, c⟩ := v
    rw [Writer.write_eq f w hv] at h
    cases he : w.cipher.encryptToVec P prof c t none with
    | mk o r =>
    rw [he] at h
    cases r with
    | panic => simp at h
    | err e => simp at h
    | ok pkt =>
      obtain ⟨pre, -, hout, hok⟩ := send_out w.writer f.retry pkt
      cases hs : w.writer.send f.retry pkt with
      | mk s x =>
      rw [hs] at hout hok
      simp only [hs] at h
      cases x with
      | error k => simp at h
      | ok u =>
        simp only [Prod.mk.injEq, and_true] at h
        subst h
        exact ⟨t, c, pkt, rfl, he, by rw [hout, hok rfl]⟩

theorem writeMany_cons {f : Flavour} {w w' : Writer} {p : Payload} {ps : List Payload}
    {rs : List (Outcome ProtocolError Unit)} (h : w.writeMany f P prof (p :: ps) = (w', rs)) :
    ∃ w1 r rs', w.write f P prof p = (w1, r) ∧ w1.writeMany f P prof ps = (w', rs') ∧ rs = r :: rs' := by
  unfold Writer.writeMany at h
  cases h1 : w.write f P prof p with
  | mk w1 r =>
  rw [h1] at h
  simp only at h
  cases h2 : w1.writeMany f P prof ps with
  | mk w2 rs' =>
  rw [h2] at h
  simp only [Prod.mk.injEq] at h
  exact ⟨w1, r, rs', rfl, by rw [h2, h.1], h.2.symm⟩

theorem write_out (f : Flavour) (w : Writer) (p : Payload) :
    w.writer.out <+: (w.write f P prof p).1.writer.out := by
  cases hv : p.view with
  | none => rw [Writer.write_none f w hv]; exact List.prefix_rfl
  | some v =>
    rw [Writer.write_eq f w hv]
    cases he : w.cipher.encryptToVec P prof v.2 v.1 none with
    | mk o x =>
    cases x with
    | panic => exact List.prefix_rfl
    | err e => exact List.prefix_rfl
    | ok pkt =>
      obtain ⟨pre, -, ho, -⟩ := send_out w.writer f.retry pkt
      cases hs : w.writer.send f.retry pkt with
      | mk s y =>
      rw [hs] at ho
      simp only [hs]
      cases y <;> exact ⟨pre, ho.symm⟩

theorem writeMany_out (f : Flavour) (ps : List Payload) (w : Writer) :
    w.writer.out <+: (w.writeMany f P prof ps).1.writer.out := by
  induction ps generalizing w with
  | nil => exact List.prefix_rfl
  | cons p ps ih => exact (write_out f w p).trans (ih _)

/-! ## C28 -/

/-- The bytes are the packets of the payloads, in order. -/
inductive Sent (P : Prims) (prof : Profile) : OutboundCipher → List Payload → OutboundCipher → Bytes → Prop
  | nil (o) : Sent P prof o [] o []
  | cons {o o1 o2 p t c pkt ps sent} : p.view = some (t, c) →
      o.encryptToVec P prof c t none = (o1, .ok pkt) → Sent P prof o1 ps o2 sent →
      Sent P prof o (p :: ps) o2 (pkt ++ sent)

theorem sent_of_ok (f : Flavour) (ps : List Payload) {w w' : Writer}
    {rs : List (Outcome ProtocolError Unit)}
    (hw : w.writeMany f P prof ps = (w', rs)) (hok : ∀ x ∈ rs, x = .ok ()) {sent : Bytes}
    (hsent : w'.writer.out = w.writer.out ++ sent) : Sent P prof w.cipher ps w'.cipher sent := by
  induction ps generalizing w rs sent with
  | nil =>
    simp only [Writer.writeMany, Prod.mk.injEq] at hw
    obtain ⟨rfl, rfl⟩ := hw
    have : sent = [] := by simpa using hsent
    subst this
    exact .nil _
  | cons p ps ih =>
    obtain ⟨w1, r1, rs', hw1, hw2, rfl⟩ := writeMany_cons hw
    have : r1 = .ok () := hok r1 (by simp)
    subst this
    obtain ⟨t, c, pkt, hv, he, hout⟩ := write_ok_inv hw1
    have hpre : w1.writer.out <+: w'.writer.out := by
      have := writeMany_out f ps w1 (P := P) (prof := prof)
      rwa [hw2] at this
    obtain ⟨sent', hsent'⟩ := hpre
    have hs2 : sent = pkt ++ sent' := by
      rw [← hsent', hout, List.append_assoc] at hsent
      exact (List.append_cancel_left hsent).symm
    subst hs2
    exact .cons hv he (ih hw2 (fun x hx => hok x (by simp [hx])) hsent'.symm)

theorem sync_delivers (hP : Lawful P) {tail : Source} {k : ErrorKind} (hend : EndsWith true tail k)
    {ps : List Payload} {o o' : OutboundCipher} {sent more : Bytes} (hsent : Sent P prof o ps o' sent)
    (hsize : ∀ p ∈ ps, ∀ c, p.contents = some c → c.length ≤ 4000013)
    {r : SyncReader} (hm : Matching o r.cipher)
    (hs : SyncStreams r.reader (sent ++ more) tail) :
    ∃ r' outs, r.readMany P prof ps.length = (r', outs) ∧ outs.map seen = ps.map Payload.view ∧
      (∀ x ∈ outs, ∃ p, x = .ok p) ∧ Matching o' r'.cipher ∧
      SyncStreams r'.reader more tail := by
  induction hsent generalizing r with
  | nil => exact ⟨r, [], rfl, rfl, by simp, hm, hs⟩
  | @cons o o1 o2 p t c pkt ps sent' hv he hsent ih =>
    have hc : c.length ≤ 4000013 := hsize p (by simp) c (Payload.view_some.1 hv).2
    obtain ⟨r1, e1, hm1, hs1⟩ := sync_read_one hP hend hm hc he (rest := sent' ++ more)
      (by rw [← List.append_assoc]; exact hs)
    obtain ⟨r2, outs, e2, hv2, hok2, hm2, hs2⟩ := ih
      (fun q hq => hsize q (by simp [hq])) hm1 hs1
    refine ⟨r2, .ok (.decrypted (t.toByte :: c)) :: outs, ?_, ?_, ?_, hm2, hs2⟩
    · simp only [List.length_cons, SyncReader.readMany, e1, e2]
    · simp only [List.map_cons, hv2, hv, seen, view_decrypted]
    · intro x hx
      rcases List.mem_cons.1 hx with rfl | hx
      · exact ⟨_, rfl⟩
      · exact hok2 x hx

/-- C28: whatever payloads of at most 4000013 bytes are written successfully, the peer's synchronous
`read` returns them (type and contents) in order, under any segmentation of the stream and any number
of interrupted reads, and after them reports how the stream ended (`UnexpectedEof` if it was closed).
`l` are bytes the handshake had already taken from the transport. -/
theorem C28_delivers (hP : Lawful P) (f : Flavour) (ps : List Payload) {w w' : Writer}
    {rs : List (Outcome ProtocolError Unit)}
    (hw : w.writeMany f P prof ps = (w', rs)) (hok : ∀ x ∈ rs, x = .ok ())
    (hsize : ∀ p ∈ ps, ∀ c, p.contents = some c → c.length ≤ 4000013)
    {sent : Bytes} (hsent : w'.writer.out = w.writer.out ++ sent)
    {i : InboundCipher} (hm : Matching w.cipher i) {l bs : Bytes} {src tail : Source} {k : ErrorKind}
    (hsplit : l ++ bs = sent) (hs : Streams true src bs tail) (hend : EndsWith true tail k) :
    ∃ r' outs, SyncReader.readMany P prof ⟨i, ⟨l, false, src⟩⟩ ps.length = (r', outs) ∧
      outs.map seen = ps.map Payload.view ∧ (∀ x ∈ outs, ∃ p, x = .ok p) ∧
      Matching w'.cipher r'.cipher ∧ (r'.read P prof).2 = .err (.fromIo k) := by
  obtain ⟨r', outs, h1, h2, h3, h4, h5⟩ := sync_delivers hP hend (sent_of_ok f ps hw hok hsent) hsize
    (r := ⟨i, ⟨l, false, src⟩⟩) hm (more := [])
    (by rw [List.append_nil, ← hsplit]; exact sync_streams hs)
  obtain ⟨s, e⟩ := sync_read_end (P := P) (prof := prof) hend h5
  exact ⟨r', outs, h1, h2, h3, h4, by rw [e]⟩

/-- The writer and the reader of the examples. -/
def sampleOut : OutboundCipher := ⟨FSStream.new (leBytes 32 77), FSAead.new (leBytes 32 99)⟩
def sampleIn : InboundCipher := ⟨FSStream.new (leBytes 32 77), FSAead.new (leBytes 32 99)⟩

/-- Non-vacuity of `C28_delivers`: three payloads (one of them a received one, re-sent) over a sink
that takes few bytes at a time, read from a stream cut in the middle of packets with interrupts. -/
example :
    let w : Writer := ⟨sampleOut, ⟨[.accept 5, .fail .interrupted, .accept 30], [], [9]⟩⟩
    let ps : List Payload := [.genuine [1, 2, 3], .decoy [], .decrypted [0x80, 7]]
    let x := w.writeMany .sync toy .debug ps
    let sent := x.1.writer.out.drop 1
    x.2 = [.ok (), .ok (), .ok ()] ∧ x.1.writer.out = w.writer.out ++ sent ∧ sent.length = 64 ∧
      (SyncReader.readMany toy .debug ⟨sampleIn, ⟨sent.take 2, false,
        [.data ((sent.drop 2).take 30), .fail .interrupted, .data (sent.drop 32)]⟩⟩ 4).2.map seen
        = [some (.genuine, [1, 2, 3]), some (.decoy, []), some (.decoy, [7]), none] := by
  decide +kernel

/-! ## C34 -/

/-- C34: one `write`.  If encryption succeeds, then whatever the transport does the outbound cipher
has moved on to its next state, a prefix of the packet has been appended to the transport and nothing
else, the result is `Ok` or an I/O error, and with `Ok` it was the whole packet. -/
theorem C34_one_packet (f : Flavour) (w : Writer) (p : Payload) {t : PacketType} {c : Bytes}
    (hv : p.packetType = some t ∧ p.contents = some c) {o' : OutboundCipher} {pkt : Bytes}
    (he : w.cipher.encryptToVec P prof c t none = (o', .ok pkt)) :
    ∃ w' r pre, w.write f P prof p = (w', r) ∧ w'.cipher = o' ∧ pre <+: pkt ∧
      w'.writer.out = w.writer.out ++ pre ∧ (r = .ok () ∨ ∃ k, r = .err (.fromIo k)) ∧
      (r = .ok () → pre = pkt) := by
  rw [Writer.write_eq f w (Payload.view_some.2 hv), he]
  obtain ⟨pre, h1, h2, h3⟩ := send_out w.writer f.retry pkt
  cases hs : w.writer.send f.retry pkt with
  | mk s x =>
  rw [hs] at h2 h3
  simp only [hs]
  cases x with
  | error k => exact ⟨_, _, pre, rfl, rfl, h1, h2, .inr ⟨k, rfl⟩, by simp⟩
  | ok u => exact ⟨_, _, pre, rfl, rfl, h1, h2, .inl rfl, fun _ => h3 rfl⟩

/-- C34: a transport that accepts the bytes in pieces of any (non-zero) size, with pauses, and for
the synchronous API interrupts, gets exactly the packet. -/
theorem C34_reliable (f : Flavour) (w : Writer) (p : Payload) {t : PacketType} {c : Bytes}
    (hv : p.packetType = some t ∧ p.contents = some c) {o' : OutboundCipher} {pkt : Bytes}
    (he : w.cipher.encryptToVec P prof c t none = (o', .ok pkt)) (hr : w.writer.Reliable f.retry) :
    ∃ s, w.write f P prof p = (⟨o', s⟩, .ok ()) ∧ s.out = w.writer.out ++ pkt ∧ s.Reliable f.retry := by
  rw [Writer.write_eq f w (Payload.view_some.2 hv), he]
  obtain ⟨s, e, h1, h2⟩ := send_reliable hr pkt
  simp only [e]
  exact ⟨s, rfl, h1, h2⟩

/-- C34: the whole history of a writer, from fresh keys, over any transport, with any number of
failed writes in between: the `n`-th call of `write` emits a prefix of the BIP-324 packet number `n`
for its payload, all of it if it returns `Ok`.  So a packet number (that is, a nonce, see C07) is
never used for two payloads. -/
theorem C34_history (hP : Lawful P) (f : Flavour) (kL kP : Bytes) (ps : List Payload)
    (hlen : ps.length < 2 ^ 32)
    (hv : ∀ p ∈ ps, ∃ t c, p.packetType = some t ∧ p.contents = some c) (s : Sink) :
    ∃ w' rs, ∃ pieces : List Bytes, Writer.writeMany f P prof ⟨⟨FSStream.new kL, FSAead.new kP⟩, s⟩ ps = (w', rs) ∧
      rs.length = ps.length ∧ pieces.length = ps.length ∧
      w'.writer.out = s.out ++ pieces.flatten ∧
      ∀ n p t c, ps[n]? = some p → p.packetType = some t → p.contents = some c →
        ∃ piece r, pieces[n]? = some piece ∧ rs[n]? = some r ∧
          piece <+: Spec.packet P kL kP n (t == .decoy) [] c ∧
          (r = .ok () ∨ ∃ k, r = .err (.fromIo k)) ∧
          (r = .ok () → piece = Spec.packet P kL kP n (t == .decoy) [] c) := by
  suffices H : ∀ (ps : List Payload) (m : Nat) (w : Writer), OutboundCipher.At P kL kP m w.cipher →
      m + ps.length < 2 ^ 32 → (∀ p ∈ ps, ∃ t c, p.packetType = some t ∧ p.contents = some c) →
      ∃ w' rs, ∃ pieces : List Bytes, Writer.writeMany f P prof w ps = (w', rs) ∧
      rs.length = ps.length ∧ pieces.length = ps.length ∧
      w'.writer.out = w.writer.out ++ pieces.flatten ∧
      ∀ n p t c, ps[n]? = some p → p.packetType = some t → p.contents = some c →
        ∃ piece r, pieces[n]? = some piece ∧ rs[n]? = some r ∧
          piece <+: Spec.packet P kL kP (m + n) (t == .decoy) [] c ∧
          (r = .ok () ∨ ∃ k, r = .err (.fromIo k)) ∧
          (r = .ok () → piece = Spec.packet P kL kP (m + n) (t == .decoy) [] c) by
    have := H ps 0 ⟨⟨FSStream.new kL, FSAead.new kP⟩, s⟩ ⟨FSStream.at_new kL, FSAead.at_new kP⟩
      (by omega) hv
    simpa using this
  intro ps
  induction ps with
  | nil => intro m w _ _ _; exact ⟨w, [], [], rfl, rfl, rfl, by simp, by simp⟩
  | cons p ps ih =>
    intro m w hat hl hv
    obtain ⟨t, c, hv1⟩ := hv p (by simp)
    simp only [List.length_cons] at hl
    obtain ⟨o', hat', he⟩ := OutboundCipher.At.encryptToVec (prof := prof) hP hat (by omega) c t none
    obtain ⟨w1, r, pre, e1, hc1, h1, h2, h3, h4⟩ := C34_one_packet f w p hv1 he
    rw [← hc1] at hat'
    obtain ⟨w2, rs, pieces, e2, g1, g2, g3, g4⟩ := ih (m + 1) w1 hat' (by omega)
      (fun q hq => hv q (by simp [hq]))
    refine ⟨w2, r :: rs, pre :: pieces, ?_, by simp [g1], by simp [g2], ?_, ?_⟩
    · simp only [Writer.writeMany, e1, e2]
    · rw [g3, h2]; simp
    · intro n q t' c' hq ht hc
      cases n with
      | zero =>
        simp only [List.getElem?_cons_zero, Option.some.injEq] at hq
        subst hq
        rw [hv1.1] at ht
        rw [hv1.2] at hc
        cases ht; cases hc
        exact ⟨pre, r, rfl, rfl, h1, h3, h4⟩
      | succ n =>
        simp only [List.getElem?_cons_succ] at hq ⊢
        have := g4 n q t' c' hq ht hc
        rwa [show m + 1 + n = m + (n + 1) by omega] at this

/-- Non-vacuity and illustration of `C34_one_packet`: the transport takes 7 bytes and then fails. -/
example :
    let w : Writer := ⟨sampleOut, ⟨[.accept 7, .fail .timedOut], [], [9]⟩⟩
    let x := w.write .sync toy .debug (.genuine [1, 2, 3])
    let e := sampleOut.encryptToVec toy .debug [1, 2, 3] .genuine none
    let pkt := match e.2 with | .ok b => b | _ => []
    x.2 = .err (.io .timedOut .abort) ∧ pkt.length = 23 ∧ x.1.writer.out = [9] ++ pkt.take 7 ∧
      x.1.cipher = e.1 ∧ x.1.cipher ≠ w.cipher := by
  decide +kernel

/-! ## C30 -/

theorem sent_backlog {ps : List Payload} {o o' : OutboundCipher} {sent : Bytes}
    (hsent : Sent P prof o ps o' sent)
    (hsize : ∀ p ∈ ps, ∀ c, p.contents = some c → c.length < 2 ^ 24) :
    ∃ ms, ps.map Payload.view = ms.map some ∧ Backlog P prof o ms sent := by
  induction hsent with
  | nil => exact ⟨[], rfl, rfl⟩
  | @cons o o1 o2 p t c pkt ps sent' hv he hsent ih =>
    obtain ⟨ms, h1, h2⟩ := ih (fun q hq => hsize q (by simp [hq]))
    exact ⟨(t, c) :: ms, by simp [h1, hv], o1, pkt, sent',
      hsize p (by simp) c (Payload.view_some.1 hv).2, he, rfl, h2⟩

/-- The number of polls in a schedule. -/
def polls : List ReadEvent → Nat
  | [] => 0
  | .poll :: es => polls es + 1
  | .cancel :: es => polls es

theorem run_inv (hP : Lawful P) (es : List ReadEvent) (r : AsyncReader) (ms : List (PacketType × Bytes))
    (h : r.Inv P prof ms) :
    ∃ r' outs done rest, r.run P prof es = (r', outs) ∧ ms = done ++ rest ∧
      (payloads outs).map Payload.view = done.map some ∧ r'.Inv P prof rest ∧
      (∀ x ∈ outs, (∃ p, x = .ok p) ∨ ∃ k, x = .err (.fromIo k)) ∧
      (r.reader.size + ms.length ≤ polls es → rest = []) := by
  induction es generalizing r ms with
  | nil =>
    refine ⟨r, [], [], ms, rfl, rfl, rfl, h, by simp, fun hle => ?_⟩
    cases ms with
    | nil => rfl
    | cons m ms => simp only [polls, List.length_cons] at hle; omega
  | cons e es ih =>
    cases e with
    | cancel => exact ih r ms h
    | poll =>
      have hst := AsyncReader.poll_step hP r ms h
      cases hp : r.poll P prof with
      | mk r1 x =>
      rw [hp] at hst
      obtain ⟨hle, hst⟩ := hst
      simp only at hle hst
      cases x with
      | pending =>
        obtain ⟨r', outs, done, rest, h1, h2, h3, h4, h5, h6⟩ := ih r1 ms hst.1
        refine ⟨r', outs, done, rest, ?_, h2, h3, h4, h5, fun hb => h6 ?_⟩
        · simp only [AsyncReader.run, hp, h1]
        · have := hst.2
          simp only [polls] at hb
          omega
      | ready y =>
        cases y with
        | panic => exact hst.elim
        | ok p =>
          obtain ⟨t, c, ms', rfl, rfl, hinv⟩ := hst
          obtain ⟨r', outs, done, rest, h1, h2, h3, h4, h5, h6⟩ := ih r1 ms' hinv
          refine ⟨r', .ok (.decrypted (t.toByte :: c)) :: outs, (t, c) :: done, rest, ?_, ?_, ?_, h4, ?_, ?_⟩
          · simp only [AsyncReader.run, hp, h1]
          · rw [h2]; rfl
          · simp only [payloads, List.map_cons, view_decrypted, h3]
          · intro z hz
            rcases List.mem_cons.1 hz with rfl | hz
            · exact .inl ⟨_, rfl⟩
            · exact h5 z hz
          · intro hb
            simp only [polls, List.length_cons] at hb
            exact h6 (by omega)
        | err e =>
          obtain ⟨⟨k, rfl⟩, hinv, hdec⟩ := hst
          obtain ⟨r', outs, done, rest, h1, h2, h3, h4, h5, h6⟩ := ih r1 ms hinv
          refine ⟨r', .err (.fromIo k) :: outs, done, rest, ?_, h2, h3, h4, ?_, ?_⟩
          · simp only [AsyncReader.run, hp, h1]
          · intro z hz
            rcases List.mem_cons.1 hz with rfl | hz
            · exact .inr ⟨_, rfl⟩
            · exact h5 z hz
          · intro hb
            simp only [polls] at hb
            by_cases hms : ms = []
            · rw [hms] at h2
              exact (List.append_eq_nil_iff.1 h2.symm).2
            · exact h6 (by have := hdec hms; omega)

/-- C30 (and the asynchronous parts of C29 and C32): let a peer write any payloads (each shorter than
`2^24` bytes) successfully.  Let the bytes reach the asynchronous reader in any segmentation, with any
number of `Pending`s, empty reads and I/O errors anywhere (`src` is any script with these bytes), part
of them (`l`) already taken by the handshake.  Then for every schedule of polls and cancellations the
payloads returned by the completed reads are a prefix of the payloads written, in order; every other
completed read reports an I/O error; and once there have been enough polls to use up the script all
payloads have been returned. -/
theorem C30_cancellation_safe (hP : Lawful P) (f : Flavour) (ps : List Payload) {w w' : Writer}
    {rs : List (Outcome ProtocolError Unit)}
    (hw : w.writeMany f P prof ps = (w', rs)) (hok : ∀ x ∈ rs, x = .ok ())
    (hsize : ∀ p ∈ ps, ∀ c, p.contents = some c → c.length < 2 ^ 24)
    {sent : Bytes} (hsent : w'.writer.out = w.writer.out ++ sent)
    {i : InboundCipher} (hm : Matching w.cipher i) (l : Bytes) (src : Source)
    (hbytes : l ++ Source.bytes src = sent) (es : List ReadEvent) :
    ∃ r' outs, AsyncReader.run P prof ⟨i, ⟨l, 0, src⟩, .initReadingLength⟩ es = (r', outs) ∧
      (payloads outs).map Payload.view <+: ps.map Payload.view ∧
      (∀ x ∈ outs, (∃ p, x = .ok p) ∨ ∃ k, x = .err (.fromIo k)) ∧
      (l.length + src.size + ps.length ≤ polls es →
        (payloads outs).map Payload.view = ps.map Payload.view) := by
  obtain ⟨ms, h1, h2⟩ := sent_backlog (sent_of_ok f ps hw hok hsent) hsize
  have hlen : ms.length = ps.length := by simpa using (congrArg List.length h1).symm
  obtain ⟨r', outs, done, rest, g1, g2, g3, g4, g5, g6⟩ := run_inv (prof := prof) hP es
    ⟨i, ⟨l, 0, src⟩, .initReadingLength⟩ ms ⟨rfl, by omega, w.cipher, hm, by
      simpa [AsyncSession.remaining, hbytes] using h2⟩
  refine ⟨r', outs, g1, ?_, g5, fun hb => ?_⟩
  · rw [g3, h1, g2, List.map_append]
    exact List.prefix_append _ _
  · have : rest = [] := g6 (by simp only [AsyncSession.size]; omega)
    rw [g3, h1, g2, this, List.append_nil]

/-- Non-vacuity of `C30_cancellation_safe`: two payloads; the stream stalls, returns nothing, fails and
is cut in the middle of both packets; cancellations in between. -/
example :
    let w : Writer := ⟨sampleOut, ⟨[], [], []⟩⟩
    let ps : List Payload := [.genuine [1, 2, 3], .decoy [5]]
    let x := w.writeMany .async toy .debug ps
    let sent := x.1.writer.out
    let src : Source := [.pending, .data ((sent.drop 1).take 1), .fail .wouldBlock, .data ((sent.drop 2).take 10),
      .pending, .data [], .data ((sent.drop 12).take 13), .fail .interrupted, .data (sent.drop 25)]
    x.2 = [.ok (), .ok ()] ∧ sent.length = 44 ∧ sent.take 1 ++ Source.bytes src = sent ∧
      (AsyncReader.run toy .debug ⟨sampleIn, ⟨sent.take 1, 0, src⟩, .initReadingLength⟩
        [.poll, .cancel, .poll, .poll, .cancel, .poll, .poll, .poll, .poll]).2.map seen
        = [none, none, some (.genuine, [1, 2, 3]), none, some (.decoy, [5])] := by
  decide +kernel

/-! ## C29 -/

/-- C29 for the asynchronous API: every payload shorter than `2^24` bytes that a `write` of either
API accepts is returned by the peer's asynchronous `read`, retried until it has been returned. -/
theorem C29_async (hP : Lawful P) (f : Flavour) (p : Payload) {w w' : Writer}
    (hw : w.write f P prof p = (w', .ok ()))
    (hsize : ∀ c, p.contents = some c → c.length < 2 ^ 24)
    {sent : Bytes} (hsent : w'.writer.out = w.writer.out ++ sent)
    {i : InboundCipher} (hm : Matching w.cipher i) (l : Bytes) (src : Source)
    (hbytes : l ++ Source.bytes src = sent) :
    ∃ r' outs q, AsyncReader.run P prof ⟨i, ⟨l, 0, src⟩, .initReadingLength⟩
        (List.replicate (l.length + src.size + 1) .poll) = (r', outs) ∧
      payloads outs = [q] ∧ q.view = p.view ∧ p.view ≠ none := by
  have hp : ∀ n, polls (List.replicate n .poll) = n := by
    intro n; induction n with
    | zero => rfl
    | succ n ih => rw [List.replicate_succ, polls, ih]
  obtain ⟨r', outs, h1, -, -, h4⟩ := C30_cancellation_safe (prof := prof) hP f [p] (w := w) (w' := w')
    (rs := [.ok ()]) (by simp only [Writer.writeMany, hw]) (by simp)
    (by intro q hq; simp only [List.mem_singleton] at hq; subst hq; exact hsize)
    hsent hm l src hbytes (List.replicate (l.length + src.size + 1) .poll)
  have h4 := h4 (by rw [hp]; simp)
  obtain ⟨t, c, pkt, hv, -⟩ := write_ok_inv hw
  cases ho : payloads outs with
  | nil => rw [ho] at h4; simp at h4
  | cons q qs =>
    rw [ho] at h4
    cases qs with
    | nil => exact ⟨r', outs, q, h1, ho, by simpa using h4, by rw [hv]; simp⟩
    | cons _ _ => simp at h4

/-- C29 is FALSE of the synchronous API: a payload of 4000014 to `2^24 - 1` bytes is accepted by
`write` and rejected by the peer's `read` with `PacketTooBig`. -/
theorem C29_sync_rejects (hP : Lawful P) (f : Flavour) (p : Payload) {w w' : Writer}
    (hw : w.write f P prof p = (w', .ok ())) {c : Bytes} (hc : p.contents = some c)
    (hbig : 4000014 ≤ c.length) (hsize : c.length < 2 ^ 24)
    {sent : Bytes} (hsent : w'.writer.out = w.writer.out ++ sent)
    {i : InboundCipher} (hm : Matching w.cipher i) {l bs : Bytes} {src tail : Source} {k : ErrorKind}
    (hsplit : l ++ bs = sent) (hs : Streams true src bs tail) (hend : EndsWith true tail k) :
    (SyncReader.read P prof ⟨i, ⟨l, false, src⟩⟩).2 = .err (.internal .packetTooBig) := by
  obtain ⟨t, c', pkt, hv, he, hout⟩ := write_ok_inv hw
  have hcc : c' = c := by
    have := (Payload.view_some.1 hv).2
    rw [hc] at this
    exact (Option.some.inj this).symm
  subst hcc
  have : pkt = sent := by rw [hout] at hsent; exact List.append_cancel_left hsent
  subst this
  have hwl := packet_length hP he
  obtain ⟨i1, i2, -, hl, -⟩ := C01_packet_round_trip hP hm c' hsize t none he
  have hs' := sync_streams (l := l) hs
  rw [hsplit] at hs'
  unfold SyncReader.read
  obtain ⟨s1, e1, st1⟩ := (sync_readExact hend hs' NUM_LENGTH_BYTES).1 (by show 3 ≤ _; omega)
  rw [e1]
  have e3 : NUM_LENGTH_BYTES = 3 := rfl
  simp only [e3, hl]
  obtain ⟨s2, e2, st2⟩ := (sync_readExact hend st1 (pkt.drop 3).length).1 (by simp [e3])
  rw [e2, e3, List.take_length]
  simp only
  have hdl : (pkt.drop 3).length = c'.length + 17 := by simp; omega
  have := (C14_to_vec_partial (P := P) (prof := prof) i1 (pkt.drop 3) none (by omega)).2.1 (by omega)
  rw [this]

/-- C29 for the synchronous API, up to the limit: a payload of at most 4000013 bytes is returned.
Missing for the full C29: payloads of 4000014 bytes and more, for which it is false
(`C29_sync_rejects`). -/
theorem C29_sync_partial (hP : Lawful P) (f : Flavour) (p : Payload) {w w' : Writer}
    (hw : w.write f P prof p = (w', .ok ()))
    (hsize : ∀ c, p.contents = some c → c.length ≤ 4000013)
    {sent : Bytes} (hsent : w'.writer.out = w.writer.out ++ sent)
    {i : InboundCipher} (hm : Matching w.cipher i) {l bs : Bytes} {src tail : Source} {k : ErrorKind}
    (hsplit : l ++ bs = sent) (hs : Streams true src bs tail) (hend : EndsWith true tail k) :
    ∃ r' q, SyncReader.read P prof ⟨i, ⟨l, false, src⟩⟩ = (r', .ok q) ∧ q.view = p.view := by
  obtain ⟨r', outs, h1, h2, h3, -⟩ := C28_delivers (prof := prof) hP f [p] (w := w) (w' := w')
    (rs := [.ok ()]) (by simp only [Writer.writeMany, hw]) (by simp)
    (by intro q hq; simp only [List.mem_singleton] at hq; subst hq; exact hsize)
    hsent hm hsplit hs hend
  simp only [List.length_singleton, SyncReader.readMany] at h1
  cases hr : SyncReader.read P prof ⟨i, ⟨l, false, src⟩⟩ with
  | mk r1 x =>
  rw [hr] at h1
  simp only [Prod.mk.injEq] at h1
  obtain ⟨rfl, rfl⟩ := h1
  obtain ⟨q, rfl⟩ := h3 x (by simp)
  exact ⟨r1, q, rfl, by simpa [seen] using h2⟩

/-- Non-vacuity of `C29_sync_rejects`: such a payload is written successfully. -/
example : ∃ (c : Bytes) (w' : Writer), c.length = 4000014 ∧
    Writer.write .sync toy .debug ⟨sampleOut, ⟨[], [], []⟩⟩ (.genuine c) = (w', .ok ()) ∧
    Matching sampleOut sampleIn := by
  obtain ⟨o', pkt, he⟩ := C01_encrypt_progress (prof := .debug) toy_lawful sampleOut (zeros 4000014)
    .genuine none (.inr (by decide +kernel))
  obtain ⟨s, hw, -⟩ := C34_reliable (P := toy) (prof := .debug) .sync ⟨sampleOut, ⟨[], [], []⟩⟩
    (.genuine (zeros 4000014)) ⟨rfl, rfl⟩ he ⟨by simp, by simp⟩
  exact ⟨zeros 4000014, _, zeros_length _, hw, rfl, rfl⟩

/-! ## C31 -/

theorem pollFill_full {s s' : AsyncSession} {buf buf' : Bytes} {n n' : Nat}
    (h : pollFill s buf n = .full s' buf' n') : ¬ n' < buf'.length := by
  fun_induction pollFill s buf n with
  | case1 => cases h
  | case2 => cases h
  | case3 => cases h
  | case4 s buf n hlt s1 b bs heq ih => exact ih h
  | case5 s buf n hlt =>
    simp only [FillResult.full.injEq] at h
    obtain ⟨-, rfl, rfl⟩ := h
    exact hlt

theorem pollPayload_stuck (hP : Lawful P) {c : InboundCipher} {s : AsyncSession} {buf : Bytes} {n : Nat}
    {r' : AsyncReader} {e : Error}
    (h : AsyncReader.pollPayload P prof c s buf n = (r', .ready (.err (.internal e))))
    (later : AsyncSession) :
    { r' with reader := later }.poll P prof
      = ({ r' with reader := later }, .ready (.err (.internal e))) := by
  unfold AsyncReader.pollPayload at h
  cases hf : pollFill s buf n with
  | pending => rw [hf] at h; simp at h
  | err s1 b m k =>
    rw [hf] at h
    simp [ProtocolError.fromIo] at h
  | full s1 b m =>
    rw [hf] at h
    have hfull := pollFill_full hf
    simp only at h
    cases hd : InboundCipher.decryptionBufferLen prof b.length with
    | none => rw [hd] at h; simp at h
    | some pl =>
      rw [hd] at h
      simp only at h
      cases hx : c.decrypt P prof b (zeros pl) none with
      | mk c1 y =>
      obtain ⟨pb, z⟩ := y
      rw [hx] at h
      cases z with
      | panic => simp at h
      | ok ty =>
        simp only at h
        cases hmk : Payload.mkDecrypted prof pb <;> simp [hmk] at h
      | err e' =>
        simp only [Prod.mk.injEq, PollResult.ready.injEq, Outcome.err.injEq,
          ProtocolError.internal.injEq] at h
        obtain ⟨rfl, rfl⟩ := h
        have hc : c1 = c := (C04_decrypt hP c c1 b (zeros pl) pb none e' hx).1
        subst hc
        unfold AsyncReader.poll AsyncReader.pollPayload
        simp only
        rw [pollFill_eq, if_neg hfull]
        simp only [hd, hx]

/-- C31: once an asynchronous read has failed other than by an I/O error (that is, the packet did not
authenticate), the reader is stuck: every later poll, under every schedule and whatever the transport
then has to deliver (`later`), returns the same error, changes nothing and in particular takes no byte
from the transport. -/
theorem C31_stuck (hP : Lawful P) {r r' : AsyncReader} {e : Error}
    (h : r.poll P prof = (r', .ready (.err (.internal e)))) (later : AsyncSession)
    (es : List ReadEvent) :
    AsyncReader.run P prof { r' with reader := later } es
      = ({ r' with reader := later }, List.replicate (polls es) (.err (.internal e))) := by
  have hstep : AsyncReader.poll P prof { r' with reader := later }
      = ({ r' with reader := later }, .ready (.err (.internal e))) := by
    unfold AsyncReader.poll at h
    split at h
    · split at h
      · simp at h
      · simp [ProtocolError.fromIo] at h
      · split at h
        · simp at h
        · rename_i heq
          exfalso
          unfold InboundCipher.decryptPacketLen at heq
          split at heq <;> simp at heq
        · exact pollPayload_stuck hP h later
    · exact pollPayload_stuck hP h later
  induction es with
  | nil => rfl
  | cons ev es ih =>
    cases ev with
    | cancel => exact ih
    | poll => simp only [AsyncReader.run, hstep, ih, polls, List.replicate_succ]

/-- Non-vacuity of `C31_stuck`: a forged packet, followed by a genuine one that is never looked at. -/
example :
    let x := sampleOut.encryptToVec toy .debug [1, 2] .genuine none
    let pkt := match x.2 with | .ok b => b | _ => []
    let r : AsyncReader := ⟨sampleIn, ⟨[], 0, [.data (pkt.take 21 ++ [1]), .data pkt]⟩, .initReadingLength⟩
    pkt.length = 22 ∧ pkt.drop 21 ≠ [1] ∧
    (r.poll toy .debug).2 = .ready (.err (.internal .decryption)) ∧
    (r.poll toy .debug).1.reader.inner = [.data pkt] ∧
    (r.run toy .debug [.poll, .poll, .cancel, .poll]) = ((r.poll toy .debug).1,
      [.err (.internal .decryption), .err (.internal .decryption), .err (.internal .decryption)]) := by
  decide +kernel

/-! ## C32 -/

/-- C32 for the asynchronous API: I/O errors of any kind, at any byte position and any number of them
(`src` is any script, its `fail` and empty `data` events are the errors), lose no byte: reads that fail
report an I/O error, and retrying returns all payloads. -/
theorem C32_async (hP : Lawful P) (f : Flavour) (ps : List Payload) {w w' : Writer}
    {rs : List (Outcome ProtocolError Unit)}
    (hw : w.writeMany f P prof ps = (w', rs)) (hok : ∀ x ∈ rs, x = .ok ())
    (hsize : ∀ p ∈ ps, ∀ c, p.contents = some c → c.length < 2 ^ 24)
    {sent : Bytes} (hsent : w'.writer.out = w.writer.out ++ sent)
    {i : InboundCipher} (hm : Matching w.cipher i) (l : Bytes) (src : Source)
    (hbytes : l ++ Source.bytes src = sent) (es : List ReadEvent)
    (hes : l.length + src.size + ps.length ≤ polls es) :
    ∃ r' outs, AsyncReader.run P prof ⟨i, ⟨l, 0, src⟩, .initReadingLength⟩ es = (r', outs) ∧
      (payloads outs).map Payload.view = ps.map Payload.view ∧
      (∀ x ∈ outs, (∃ p, x = .ok p) ∨ ∃ k, x = .err (.fromIo k)) := by
  obtain ⟨r', outs, h1, -, h3, h4⟩ := C30_cancellation_safe hP f ps hw hok hsize hsent hm l src hbytes es
  exact ⟨r', outs, h1, h4 hes, h3⟩

theorem readExact_fail {c t : Source} {k : ErrorKind} (hc : Smooth true c) (hk : k ≠ .interrupted)
    (n : Nat) (acc : Bytes) (hn : (Source.bytes c).length < n) :
    Source.reader.readExact true (c ++ .fail k :: t) n acc = (t, .error k) := by
  induction c generalizing n acc with
  | nil =>
    rw [Reader.readExact_eq, if_neg (by omega)]
    have : Source.reader.read ([] ++ .fail k :: t) n = (t, .err k) := rfl
    rw [this]
    simp [hk]
  | cons e c ih =>
    have hz : ¬ n = 0 := by omega
    rcases hc e (by simp) with rfl | ⟨b, ds, rfl⟩ | ⟨-, rfl⟩
    · rw [List.cons_append, readExact_pending, if_neg hz]
      exact ih hc.cons n acc hn
    · simp only [Source.bytes, List.length_append] at hn
      rw [List.cons_append, Reader.readExact_eq, if_neg hz]
      have : Source.reader.read (.data (b :: ds) :: (c ++ .fail k :: t)) n
          = (c ++ .fail k :: t, .ok (b :: ds)) := by
        simp only [Source.reader, Source.read]
        rw [if_pos (by omega)]
      rw [this]
      exact ih hc.cons _ _ (by omega)
    · rw [List.cons_append, Reader.readExact_eq, if_neg hz]
      have : Source.reader.read (.fail .interrupted :: (c ++ .fail k :: t)) n
          = (c ++ .fail k :: t, .err .interrupted) := rfl
      rw [this]
      exact ih hc.cons n acc hn

/-- `read_exact` on the session reader, hit by an error: the bytes before it are gone. -/
theorem sync_readExact_fail {s : SyncSession} {bs : Bytes} {t : Source} {k : ErrorKind}
    (hs : SyncStreams s bs (.fail k :: t)) (hk : k ≠ .interrupted) {n : Nat} (hn : bs.length < n) :
    ∃ s', SyncSession.reader.readExact true s n = (s', .error k) ∧ s'.abs = t := by
  obtain ⟨c, hc, habs, rfl⟩ := hs
  cases hr : SyncSession.reader.readExact true s n with
  | mk s' r =>
  have h := readExact_abs syncAbs true s n [] hr
  rw [habs, readExact_fail hc hk n [] hn] at h
  simp only [Prod.mk.injEq] at h
  exact ⟨s', by rw [← h.2], h.1.symm⟩

theorem sync_readExact_congr {s1 s2 : SyncSession} (h : s1.abs = s2.abs) (n : Nat) :
    ∃ s1' s2' x, SyncSession.reader.readExact true s1 n = (s1', x) ∧
      SyncSession.reader.readExact true s2 n = (s2', x) ∧ s1'.abs = s2'.abs := by
  cases h1 : SyncSession.reader.readExact true s1 n with
  | mk s1' x =>
  cases h2 : SyncSession.reader.readExact true s2 n with
  | mk s2' y =>
  have e1 := readExact_abs syncAbs true s1 n [] h1
  have e2 := readExact_abs syncAbs true s2 n [] h2
  rw [show syncAbs.abs s1 = syncAbs.abs s2 from h, e2] at e1
  simp only [Prod.mk.injEq] at e1
  exact ⟨s1', s2', x, rfl, by rw [e1.2], e1.1.symm⟩

/-- A reader is determined by its cipher and what its session still has to deliver. -/
theorem sync_read_congr (c : InboundCipher) {s1 s2 : SyncSession} (h : s1.abs = s2.abs) :
    (SyncReader.read P prof ⟨c, s1⟩).2 = (SyncReader.read P prof ⟨c, s2⟩).2 ∧
    (SyncReader.read P prof ⟨c, s1⟩).1.cipher = (SyncReader.read P prof ⟨c, s2⟩).1.cipher ∧
    (SyncReader.read P prof ⟨c, s1⟩).1.reader.abs = (SyncReader.read P prof ⟨c, s2⟩).1.reader.abs := by
  obtain ⟨a1, a2, x, h1, h2, h3⟩ := sync_readExact_congr h NUM_LENGTH_BYTES
  unfold SyncReader.read
  simp only [h1, h2]
  cases x with
  | error k => exact ⟨rfl, rfl, h3⟩
  | ok lb =>
    simp only
    cases hd : c.decryptPacketLen P prof lb with
    | mk c1 y =>
    cases y with
    | panic => exact ⟨rfl, rfl, h3⟩
    | err e => exact ⟨rfl, rfl, h3⟩
    | ok n =>
      simp only
      obtain ⟨b1, b2, x2, g1, g2, g3⟩ := sync_readExact_congr h3 n
      simp only [g1, g2]
      cases x2 with
      | error k => exact ⟨rfl, rfl, g3⟩
      | ok pb =>
        simp only
        cases hx : c1.decryptToVec P prof pb none with
        | mk c2 z =>
        cases z with
        | panic => exact ⟨rfl, rfl, g3⟩
        | err e => exact ⟨rfl, rfl, g3⟩
        | ok tp =>
          simp only
          cases Payload.mkDecrypted prof tp.2 <;> exact ⟨rfl, rfl, g3⟩

theorem sync_readMany_congr (n : Nat) (c : InboundCipher) {s1 s2 : SyncSession} (h : s1.abs = s2.abs) :
    (SyncReader.readMany P prof ⟨c, s1⟩ n).2 = (SyncReader.readMany P prof ⟨c, s2⟩ n).2 := by
  induction n generalizing c s1 s2 with
  | zero => rfl
  | succ n ih =>
    obtain ⟨h1, h2, h3⟩ := sync_read_congr (P := P) (prof := prof) c h
    simp only [SyncReader.readMany]
    rw [h1]
    congr 1
    have e := ih (SyncReader.read P prof ⟨c, s1⟩).1.cipher h3
    have e2 : (⟨(SyncReader.read P prof ⟨c, s1⟩).1.cipher, (SyncReader.read P prof ⟨c, s2⟩).1.reader⟩
      : SyncReader) = (SyncReader.read P prof ⟨c, s2⟩).1 := by rw [h2]
    rw [e2] at e
    exact e

/-- C32 is FALSE of the synchronous API.  Whenever a read is hit by an I/O error (other than
`Interrupted`) after XX -/
theorem C32_sync_loses (hP : Lawful P) {o o' : OutboundCipher} {i : InboundCipher}
    (hm : Matching o i) {c : Bytes} {ty : PacketType} (hlen : c.length < 2 ^ 24) {w : Bytes}
    (he : o.encryptToVec P prof c ty none = (o', .ok w)) {j : Nat} (hj : j < w.length)
    {l bs : Bytes} (hsplit : l ++ bs = w.take j) {src t : Source} {k : ErrorKind}
    (hk : k ≠ .interrupted) (hs : Streams true src bs (.fail k :: t)) :
    ∃ r', SyncReader.read P prof ⟨i, ⟨l, false, src⟩⟩ = (r', .err (.fromIo k)) ∧
      (∀ n, (r'.readMany P prof n).2 = (SyncReader.readMany P prof ⟨r'.cipher, ⟨[], false, t⟩⟩ n).2) ∧
      (j < 3 → r'.cipher = i) ∧
      (3 ≤ j → i.decryptPacketLen P prof (w.take 3) = (r'.cipher, .ok (c.length + 17))) := by
  have hst := sync_streams (l := l) hs
  rw [hsplit] at hst
  have hwl := packet_length hP he
  have hend : EndsWith true (.fail k :: t) k := .inr (.inr ⟨t, rfl, by simp [hk]⟩)
  have e3 : NUM_LENGTH_BYTES = 3 := rfl
  by_cases h3 : j < 3
  · obtain ⟨s', e, ha⟩ := sync_readExact_fail hst hk (n := 3) (by simp; omega)
    refine ⟨⟨i, s'⟩, ?_, fun n => sync_readMany_congr n i ha, fun _ => rfl, by omega⟩
    unfold SyncReader.read
    rw [e3]
    simp only [e]
  · obtain ⟨i1, i2, -, hl, -⟩ := C01_packet_round_trip hP hm c hlen ty none he
    obtain ⟨s1, e1, st1⟩ := (sync_readExact hend hst 3).1 (by simp; omega)
    obtain ⟨s', e, ha⟩ := sync_readExact_fail st1 hk (n := (w.drop 3).length) (by simp; omega)
    have ht : (w.take j).take 3 = w.take 3 := by rw [List.take_take, Nat.min_eq_left (by omega)]
    refine ⟨⟨i1, s'⟩, ?_, fun n => sync_readMany_congr n i1 ha, by omega, fun _ => ?_⟩
    · unfold SyncReader.read
      rw [e3]
      simp only [e1, ht, hl, e]
    · rw [hl]
      simp only [List.length_drop]
      congr 3
      omega

/-- C32, concrete counterexample: the packet arrives completely, but with one `WouldBlock` after its
first byte (and then in the body); retrying never returns the payload. -/
theorem C32_sync_counterexample : ∃ (pkt : Bytes),
    (sampleOut.encryptToVec toy .debug [1, 2] .genuine none).2 = .ok pkt ∧
    (SyncReader.readMany toy .debug ⟨sampleIn, ⟨[], false, [.data pkt]⟩⟩ 2).2
      = [.ok (.decrypted [0, 1, 2]), .err (.io .unexpectedEof .retryV1)] ∧
    (SyncReader.readMany toy .debug ⟨sampleIn, ⟨[], false,
        [.data (pkt.take 1), .fail .wouldBlock, .data (pkt.drop 1)]⟩⟩ 3).2
      = [.err (.io .wouldBlock .abort), .err (.io .unexpectedEof .retryV1),
        .err (.io .unexpectedEof .retryV1)] ∧
    (SyncReader.readMany toy .debug ⟨sampleIn, ⟨[], false,
        [.data (pkt.take 10), .fail .wouldBlock, .data (pkt.drop 10)]⟩⟩ 3).2
      = [.err (.io .wouldBlock .abort), .err (.io .unexpectedEof .retryV1),
        .err (.io .unexpectedEof .retryV1)] := by
  refine ⟨match (sampleOut.encryptToVec toy .debug [1, 2] .genuine none).2 with | .ok b => b | _ => [], ?_⟩
  decide +kernel

/-- C32 for the synchronous API, the part that holds: `Interrupted` errors are invisible wherever they
occur (this is `C28_delivers`, whose streams contain them), and after an error of any other kind before
the first byte of a packet all later reads behave as if it had not occurred.  Missing: errors after the
first byte of a packet, for which the property is false (`C32_sync_loses`). -/
theorem C32_sync_partial (i : InboundCipher) {k : ErrorKind} (hk : k ≠ .interrupted)
    {src t : Source} (hs : Streams true src [] (.fail k :: t)) :
    ∃ r', SyncReader.read P prof ⟨i, ⟨[], false, src⟩⟩ = (r', .err (.fromIo k)) ∧
      ∀ n, (r'.readMany P prof n).2 = (SyncReader.readMany P prof ⟨i, ⟨[], false, t⟩⟩ n).2 := by
  obtain ⟨s', e, ha⟩ := sync_readExact_fail (sync_streams (l := []) hs) hk (n := 3) (by simp)
  refine ⟨⟨i, s'⟩, ?_, fun n => sync_readMany_congr n i ha⟩
  unfold SyncReader.read
  have e3 : NUM_LENGTH_BYTES = 3 := rfl
  rw [e3]
  simp only [e]

/-- Non-vacuity of `C32_sync_partial`. -/
example : Streams true [.pending, .fail .interrupted, .fail .timedOut, .data [1]] []
    (.fail .timedOut :: [.data [1]]) := by
  refine ⟨[.pending, .fail .interrupted], ?_, rfl, rfl⟩
  intro e he
  simp only [List.mem_cons, List.not_mem_nil, or_false] at he
  rcases he with rfl | rfl
  · exact .inl rfl
  · exact .inr (.inr ⟨rfl, rfl⟩)

/-- The responder's view of a handshake in the examples: the initiator's bytes. -/
def sampleWire : Bytes :=
  wireI toy [1, 2, 3, 4] (leBytes 32 77) (leBytes 32 99) (some [42, 42]) (some [[1, 2, 3], []])

/-- Does this handshake return `Ok`, or which error? -/
def hsResult {A : Api} (x : Sink × HsLog × Outcome ProtocolError (InboundCipher × OutboundCipher × A.Session)) :
    Option ProtocolError :=
  match x.2.2 with
  | .ok _ => none
  | .err e => some e
  | .panic => some (.internal .decryption)

/-- C32 is FALSE of the handshake, even for `Interrupted`: while it looks for the garbage terminator the
code calls `read` itself and passes the error on, so an interrupted system call there fails the whole
handshake; the same interrupt while the key is being read is invisible to the synchronous API.  Without
the interrupt the same bytes are accepted. -/
theorem C32_handshake_interrupted :
    hsResult (handshake syncApi toy .debug [1, 2, 3, 4] .responder (leBytes 32 99) none none
      [.data (sampleWire.take 81), .data (sampleWire.drop 81)] ⟨[], [], []⟩) = none ∧
    hsResult (handshake syncApi toy .debug [1, 2, 3, 4] .responder (leBytes 32 99) none none
      [.data (sampleWire.take 20), .fail .interrupted, .data (sampleWire.drop 20)] ⟨[], [], []⟩) = none ∧
    hsResult (handshake syncApi toy .debug [1, 2, 3, 4] .responder (leBytes 32 99) none none
      [.data (sampleWire.take 81), .fail .interrupted, .data (sampleWire.drop 81)] ⟨[], [], []⟩)
      = some (.io .interrupted .abort) ∧
    hsResult (handshake asyncApi toy .debug [1, 2, 3, 4] .responder (leBytes 32 99) none none
      [.data (sampleWire.take 81), .fail .interrupted, .data (sampleWire.drop 81)] ⟨[], [], []⟩)
      = some (.io .interrupted .abort) := by
  decide +kernel

/-! ## C35 -/

/-- C35 is FALSE of the code (both APIs): the first write fails after 7 bytes with a transient error
(for the asynchronous API even `Interrupted`), the second one returns `Ok`, and no read of the peer
returns the second payload. -/
theorem C35_counterexample :
    (let x := Writer.writeMany .sync toy .debug ⟨sampleOut, ⟨[.accept 7, .fail .wouldBlock], [], []⟩⟩
        [.genuine [1, 2, 3], .genuine [4]]
     x.2 = [.err (.io .wouldBlock .abort), .ok ()] ∧
     (SyncReader.readMany toy .debug ⟨sampleIn, ⟨[], false, [.data x.1.writer.out]⟩⟩ 3).2.map seen
        = [none, none, none]) ∧
    (let x := Writer.writeMany .async toy .debug ⟨sampleOut, ⟨[.accept 7, .fail .interrupted], [], []⟩⟩
        [.genuine [1, 2, 3], .genuine [4]]
     x.2 = [.err (.io .interrupted .abort), .ok ()] ∧
     (AsyncReader.run toy .debug ⟨sampleIn, ⟨[], 0, [.data x.1.writer.out]⟩, .initReadingLength⟩
        [.poll, .poll, .poll]).2.map seen = [none, none, none]) ∧
    -- Nothing at all was transmitted by the failed write, and still the peer cannot go on.
    (let x := Writer.writeMany .sync toy .debug ⟨sampleOut, ⟨[.fail .timedOut], [], []⟩⟩
        [.genuine [1, 2, 3], .genuine [4]]
     x.2 = [.err (.io .timedOut .abort), .ok ()] ∧
     (SyncReader.readMany toy .debug ⟨sampleIn, ⟨[], false, [.data x.1.writer.out]⟩⟩ 3).2.map seen
        = [none, none, none]) := by
  decide +kernel

/-- Each of the writes got all its bytes (20 more than the contents) taken by the transport. -/
def Writer.AllTaken (f : Flavour) (P : Prims) (prof : Profile) : Writer → List Payload → Prop
  | _, [] => True
  | w, p :: ps =>
    (∃ c, p.contents = some c ∧
      ((w.write f P prof p).1.writer.out.drop w.writer.out.length).length = c.length + 20) ∧
    Writer.AllTaken f P prof (w.write f P prof p).1 ps

theorem sent_of_taken (hP : Lawful P) (f : Flavour) (ps : List Payload) {w : Writer}
    (h : w.AllTaken f P prof ps) {sent : Bytes}
    (hsent : (w.writeMany f P prof ps).1.writer.out = w.writer.out ++ sent) :
    Sent P prof w.cipher ps (w.writeMany f P prof ps).1.cipher sent := by
  induction ps generalizing w sent with
  | nil =>
    simp only [Writer.writeMany] at hsent ⊢
    have : sent = [] := by simpa using hsent
    subst this
    exact .nil _
  | cons p ps ih =>
    obtain ⟨⟨c, hc, hlen⟩, htl⟩ := h
    obtain ⟨pre1, hpre1⟩ := write_out (P := P) (prof := prof) f w p
    obtain ⟨pre2, hpre2⟩ := writeMany_out (P := P) (prof := prof) f ps (w.write f P prof p).1
    have hwm : (w.writeMany f P prof (p :: ps)).1 = ((w.write f P prof p).1.writeMany f P prof ps).1 := rfl
    rw [hwm] at hsent ⊢
    rw [← hpre1, List.drop_left] at hlen
    have hs : sent = pre1 ++ pre2 := by
      rw [← hpre2, ← hpre1, List.append_assoc] at hsent
      exact (List.append_cancel_left hsent).symm
    subst hs
    have hrest := ih htl hpre2.symm
    cases hv : p.view with
    | none =>
      rw [Writer.write_none f w hv] at hpre1
      have : pre1 = [] := by simpa using hpre1
      rw [this] at hlen
      simp at hlen
    | some v =>
      obtain ⟨t, c'⟩ := v
      cases he : w.cipher.encryptToVec P prof c' t none with
      | mk o x =>
      have hw := Writer.write_eq f w hv (P := P) (prof := prof)
      rw [he] at hw
      cases x with
      | panic =>
        simp only at hw
        rw [hw] at hpre1
        have : pre1 = [] := by simpa using hpre1
        rw [this] at hlen
        simp at hlen
      | err e =>
        simp only at hw
        rw [hw] at hpre1
        have : pre1 = [] := by simpa using hpre1
        rw [this] at hlen
        simp at hlen
      | ok pkt =>
        obtain ⟨w', r, pre, e1, e2, ⟨q, e3⟩, e4, -⟩ :=
          C34_one_packet (P := P) (prof := prof) f w p (Payload.view_some.1 hv) he
        have : c' = c := by
          have := (Payload.view_some.1 hv).2
          rw [hc] at this
          exact (Option.some.inj this).symm
        subst this
        rw [e1] at hpre1 hrest ⊢
        simp only at hpre1 hrest ⊢
        have hpp : pre1 = pre := by
          rw [e4] at hpre1
          exact List.append_cancel_left hpre1
        subst hpp
        have hpl := packet_length hP he
        have : q = [] := by
          have := congrArg List.length e3
          simp only [List.length_append] at this
          exact List.eq_nil_of_length_eq_zero (by omega)
        subst this
        rw [List.append_nil] at e3
        subst e3
        rw [e2] at hrest
        exact .cons hv he hrest

/-- C35, the part that holds: as long as every write got its whole packet taken by the transport
(whatever it returned: `Ok`, or an error of the `flush` after it), the peer reads all the payloads,
those of the failed writes included.  Missing: writes of which the transport took only a part, for which
the property is false (`C35_counterexample`). -/
theorem C35_taken_partial (hP : Lawful P) (f : Flavour) (ps : List Payload) {w w' : Writer}
    {rs : List (Outcome ProtocolError Unit)} (hw : w.writeMany f P prof ps = (w', rs))
    (htaken : w.AllTaken f P prof ps)
    (hsize : ∀ p ∈ ps, ∀ c, p.contents = some c → c.length ≤ 4000013)
    {sent : Bytes} (hsent : w'.writer.out = w.writer.out ++ sent)
    {i : InboundCipher} (hm : Matching w.cipher i) {l bs : Bytes} {src tail : Source} {k : ErrorKind}
    (hsplit : l ++ bs = sent) (hs : Streams true src bs tail) (hend : EndsWith true tail k) :
    ∃ r' outs, SyncReader.readMany P prof ⟨i, ⟨l, false, src⟩⟩ ps.length = (r', outs) ∧
      outs.map seen = ps.map Payload.view ∧ (∀ x ∈ outs, ∃ p, x = .ok p) := by
  have hS := sent_of_taken hP f ps htaken (sent := sent) (by rw [hw]; exact hsent)
  obtain ⟨r', outs, h1, h2, h3, -⟩ := sync_delivers hP hend hS hsize
    (r := ⟨i, ⟨l, false, src⟩⟩) hm (more := [])
    (by rw [List.append_nil, ← hsplit]; exact sync_streams hs)
  exact ⟨r', outs, h1, h2, h3⟩

/-- Non-vacuity of `C35_taken_partial`: the first write fails in `flush`, the second succeeds, and both
packets are complete. -/
example :
    let w : Writer := ⟨sampleOut, ⟨[.accept 7], [some .wouldBlock], []⟩⟩
    let ps : List Payload := [.genuine [1, 2, 3], .decoy [4]]
    (w.writeMany .sync toy .debug ps).2 = [.err (.io .wouldBlock .abort), .ok ()] ∧
      w.AllTaken .sync toy .debug ps := by
  refine ⟨by decide +kernel, ?_⟩
  refine ⟨⟨[1, 2, 3], rfl, ?_⟩, ⟨[4], rfl, ?_⟩, trivial⟩
  · decide +kernel
  · decide +kernel

end Bip324
