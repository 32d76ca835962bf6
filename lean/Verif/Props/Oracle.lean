import Verif.Props.Differential
import Verif.Props.Attacker

/-!
# C90: what an attacker learns who changes the announced length

The three length bytes are encrypted by adding a key stream, and nothing authenticates them by themselves.  An
attacker who changes bits of them and then lets bytes of its own follow, one after the other, sees after how many of
them the receiver gives up: this number tells it the length of the sender's packet.
-/

namespace Bip324

variable {P : Prims} {prof : Profile}

theorem le_xor (w a b : Nat) : Spec.le w (a ^^^ b) = Spec.xor (Spec.le w a) (Spec.le w b) := by
  simp only [Spec.le, Spec.xor, List.zipWith_map, List.zipWith_self]
  apply List.map_congr_left
  intro i _
  rw [← UInt8.ofNat_xor, show (256 : Nat) ^ i = 2 ^ (8 * i) by rw [Nat.pow_mul], ← Nat.shiftRight_eq_div_pow,
    Nat.shiftRight_xor_distrib, ← Nat.shiftRight_eq_div_pow, ← Nat.shiftRight_eq_div_pow,
    show (256 : Nat) = 2 ^ 8 from rfl, Nat.xor_mod_two_pow]

theorem xor_right_comm (a b c : Bytes) : Spec.xor (Spec.xor a b) c = Spec.xor (Spec.xor a c) b := by
  induction a generalizing b c with
  | nil => rfl
  | cons x a ih =>
    cases b with
    | nil => cases c <;> rfl
    | cons y b =>
      cases c with
      | nil => rfl
      | cons z c =>
        simp only [Spec.xor, List.zipWith_cons_cons, List.cons.injEq] at ih ⊢
        exact ⟨by rw [UInt8.xor_assoc, UInt8.xor_comm y z, ← UInt8.xor_assoc], ih b c⟩

/-- Changing bits of an encrypted length changes the same bits of the length. -/
theorem lengthBytes_xor (kL : Bytes) (n len d : Nat) :
    Spec.xor (Spec.xor (Spec.le 3 len) (Spec.lengthMask P kL n)) (Spec.le 3 d) =
      Spec.xor (Spec.le 3 (len ^^^ d)) (Spec.lengthMask P kL n) := by
  rw [xor_right_comm, le_xor]

/-- Bytes that begin with an encrypted length some of whose bits were changed, in the place of packet number `n`. -/
theorem announces_xor (kL : Bytes) (n : Nat) {len d : Nat} (hlen : len < 2 ^ 24) (hd : d < 2 ^ 24) (more : Bytes) :
    Spec.Announces P kL n
      (Spec.xor (Spec.xor (Spec.le 3 len) (Spec.lengthMask P kL n)) (Spec.le 3 d) ++ more) (len ^^^ d) :=
  ⟨Nat.xor_lt_two_pow hlen hd, by
    rw [lengthBytes_xor]
    exact take_append_len _ _ (lengthBytes_length (P := P) kL n _).symm⟩

/-- What the assumption on the attacker says about a packet of another length than that sent. -/
theorem unforged_length (hP : Lawful P) {kP : Bytes} {n : Nat} {m : UInt8 × Bytes} {rest : List (UInt8 × Bytes)}
    {bs : Bytes} (hu : Spec.Unforged P kP n 1 (m :: rest) bs) {header : UInt8} {contents before after : Bytes}
    (hb : bs = before ++ Spec.sealedPart P kP n header [] contents ++ after) : contents.length = m.2.length := by
  have hc : Spec.Carries P kP n [(header, contents)] bs := ⟨before, after, hb, trivial⟩
  have := carries_prefix hP kP [(header, contents)] n 1 (m :: rest) bs [] (by simpa using hu) (by simp) hc
  have := (List.cons_prefix_cons.1 this).1
  rw [← this]

/-- C90, blocking API.  The sender's packet number `n` has contents `m.2`.  The attacker changes the bits `d` of its
three length bytes and lets any bytes `more` follow.  The reader waits for more bytes exactly as long as there are
fewer than the changed length plus 17; then the read returns, with an error when the attacker has not forged a
packet, and has taken exactly that many bytes. -/
theorem C90_sync (hP : Lawful P) {kL kP : Bytes} {n : Nat} {r : SyncReader} (hat : r.cipher.At P kL kP n)
    (hn : n + 1 < 2 ^ 32) {tail : Source} {k : ErrorKind} (hend : EndsWith true tail k) {m : UInt8 × Bytes}
    {sent : List (UInt8 × Bytes)} (hlen : m.2.length < 2 ^ 24) {d : Nat} (hd : d < 2 ^ 24) (hd0 : d ≠ 0)
    {more : Bytes} (hu : Spec.Unforged P kP n 1 (m :: sent) more)
    (hs : SyncStreams r.reader
      (Spec.xor (Spec.xor (Spec.le 3 m.2.length) (Spec.lengthMask P kL n)) (Spec.le 3 d) ++ more) tail) :
    (more.length < (m.2.length ^^^ d) + 17 → (r.read P prof).2 = .err (.fromIo k)) ∧
    ((m.2.length ^^^ d) + 17 ≤ more.length →
      ∃ e, (r.read P prof).2 = .err (.internal e) ∧
        SyncStreams (r.read P prof).1.reader (more.drop ((m.2.length ^^^ d) + 17)) tail) := by
  have hl : m.2.length ^^^ d < 2 ^ 24 := Nat.xor_lt_two_pow hlen hd
  have hne : m.2.length ^^^ d ≠ m.2.length := by
    intro h
    apply hd0
    have := congrArg (m.2.length ^^^ ·) h
    simpa [← Nat.xor_assoc] using this
  rw [lengthBytes_xor] at hs
  generalize hL : m.2.length ^^^ d = L at *
  have hbl := lengthBytes_length (P := P) kL n L
  obtain ⟨s1, he1, hs1⟩ := (sync_readExact hend hs 3).1 (by rw [List.length_append, hbl]; omega)
  rw [take_append_len _ _ hbl.symm] at he1
  rw [drop_append_len _ _ hbl.symm] at hs1
  obtain ⟨i1, hdl, hh⟩ := decryptPacketLen_exact (prof := prof) hat hn L hl
  obtain ⟨hr3, hr4⟩ := sync_readExact hend hs1 (L + 17)
  constructor
  · intro hshort
    obtain ⟨s', he⟩ := hr4 hshort
    unfold SyncReader.read
    rw [show NUM_LENGTH_BYTES = 3 from rfl, he1]
    simp only [hdl, he]
  · intro hlong
    obtain ⟨s2, he2, hs2⟩ := hr3 hlong
    have hctl : (more.take (L + 17)).length = L + 17 := by rw [List.length_take]; omega
    rcases decryptToVec_at (prof := prof) hP hh.2 (by omega) (more.take (L + 17)) none (by omega) with
      ⟨header, contents, i', he, hc, hi, hpc, hv⟩ | ⟨hno, e, hv⟩
    · exfalso
      have h1 := unforged_length hP hu (header := header) (contents := contents) (before := [])
        (after := more.drop (L + 17)) (by
          have : Spec.sealedPart P kP n header [] contents = more.take (L + 17) := he.symm
          rw [this, List.nil_append, List.take_append_drop])
      have h2 := congrArg List.length he
      rw [hctl, sealedPart_length hP] at h2
      omega
    · refine ⟨e, ?_, ?_⟩
      all_goals
        unfold SyncReader.read
        rw [show NUM_LENGTH_BYTES = 3 from rfl, he1]
        simp only [hdl, he2, hv]
      exact hs2

/-- C90, what the attacker learns: if the reader still waits after `more` and has given up after one more byte, the
length of the sender's packet is known. -/
theorem C90_learns (hP : Lawful P) {kL kP : Bytes} {n : Nat} {r r' : SyncReader} (hat : r.cipher.At P kL kP n)
    (hat' : r'.cipher.At P kL kP n) (hn : n + 1 < 2 ^ 32) {tail tail' : Source} {k k' : ErrorKind}
    (hend : EndsWith true tail k) (hend' : EndsWith true tail' k') {m : UInt8 × Bytes}
    {sent : List (UInt8 × Bytes)} (hlen : m.2.length < 2 ^ 24) {d : Nat} (hd : d < 2 ^ 24) (hd0 : d ≠ 0)
    {more : Bytes} {b : UInt8} (hu : Spec.Unforged P kP n 1 (m :: sent) more)
    (hu' : Spec.Unforged P kP n 1 (m :: sent) (more ++ [b]))
    (hs : SyncStreams r.reader
      (Spec.xor (Spec.xor (Spec.le 3 m.2.length) (Spec.lengthMask P kL n)) (Spec.le 3 d) ++ more) tail)
    (hs' : SyncStreams r'.reader
      (Spec.xor (Spec.xor (Spec.le 3 m.2.length) (Spec.lengthMask P kL n)) (Spec.le 3 d) ++ (more ++ [b])) tail')
    (hwaits : (r.read P prof).2 = .err (.fromIo k)) (hgives : ∀ j, (r'.read P prof).2 ≠ .err (.fromIo j)) :
    m.2.length = (more.length - 16) ^^^ d := by
  obtain ⟨_, h2⟩ := C90_sync (prof := prof) hP hat hn hend hlen hd hd0 hu hs
  obtain ⟨h3, _⟩ := C90_sync (prof := prof) hP hat' hn hend' hlen hd hd0 hu' hs'
  rw [List.length_append, List.length_singleton] at h3
  have h4 : ¬ more.length + 1 < (m.2.length ^^^ d) + 17 := fun h => hgives _ (h3 h)
  have h5 : ¬ (m.2.length ^^^ d) + 17 ≤ more.length := by
    intro h
    obtain ⟨e, he, _⟩ := h2 h
    rw [hwaits] at he
    cases he
  rw [show more.length - 16 = m.2.length ^^^ d by omega, Nat.xor_assoc, Nat.xor_self, Nat.xor_zero]

/-- C90, asynchronous API: the same for any sequence of polls and cancellations and any segmentation of the stream.
With too few bytes no poll gives anything but errors of the transport; with enough bytes and enough polls there is
a decryption error; nothing is ever delivered. -/
theorem C90_async (hP : Lawful P) {kL kP : Bytes} {n : Nat} {r : AsyncReader} {es : List ReadEvent}
    (hn : n + es.length < 2 ^ 32) {m : UInt8 × Bytes}
    {sent : List (UInt8 × Bytes)} (hlen : m.2.length < 2 ^ 24) {d : Nat} (hd : d < 2 ^ 24) (hd0 : d ≠ 0)
    {more : Bytes} (hu : Spec.Unforged P kP n 1 (m :: sent) more)
    (hr : r.Reads P kL kP n
      (Spec.xor (Spec.xor (Spec.le 3 m.2.length) (Spec.lengthMask P kL n)) (Spec.le 3 d) ++ more)) :
    payloads (r.run P prof es).2 = [] ∧
    (more.length < (m.2.length ^^^ d) + 17 → ∀ x ∈ (r.run P prof es).2, ∃ k, x = .err (.fromIo k)) ∧
    ((m.2.length ^^^ d) + 17 ≤ more.length → r.reader.size < polls es →
      .err (.internal .decryption) ∈ (r.run P prof es).2) := by
  have hl : m.2.length ^^^ d < 2 ^ 24 := Nat.xor_lt_two_pow hlen hd
  have hne : m.2.length ^^^ d ≠ m.2.length := by
    intro h
    apply hd0
    have := congrArg (m.2.length ^^^ ·) h
    simpa [← Nat.xor_assoc] using this
  have ha := announces_xor (P := P) kL n hlen hd more
  have hbl := lengthBytes_length (P := P) kL n (m.2.length ^^^ d)
  rw [lengthBytes_xor] at hr ha
  generalize m.2.length ^^^ d = L at *
  have hok : ∀ {xs : List (Outcome ProtocolError Payload)} {p}, .ok p ∈ xs → payloads xs ≠ [] := by
    intro xs p
    induction xs with
    | nil => intro h; cases h
    | cons x xs ih =>
      intro h
      rcases List.mem_cons.1 h with rfl | h'
      · simp [payloads]
      · cases x <;> simp only [payloads] <;> first | exact ih h' | simp
  cases hrun : r.run P prof es with
  | mk r' xs =>
  by_cases hshort : more.length < L + 17
  · obtain ⟨j, _, hp, hx, _⟩ := C62_session_async hP es hr hn hrun
      (.waits (.inr ⟨L, ha, by omega, by rw [List.length_append, hbl]; omega⟩))
    have hp : payloads xs = [] := by simpa using hp
    refine ⟨hp, fun _ x hxm => ?_, fun h => by omega⟩
    rcases hx x hxm with ⟨p, rfl⟩ | h | ⟨_, h, _⟩
    · exact absurd hp (hok hxm)
    · exact h
    · cases h
  · have hns : Spec.NotSealed P (2 ^ 24 - 1) kL kP n []
        (Spec.xor (Spec.le 3 L) (Spec.lengthMask P kL n) ++ more) := by
      refine ⟨L, ha, by omega, by rw [List.length_append, hbl]; omega, fun header contents he => ?_⟩
      rw [drop_append_len _ _ hbl.symm] at he
      have h1 := unforged_length hP hu (header := header) (contents := contents) (before := [])
        (after := more.drop (L + 17)) (by rw [← he, List.nil_append, List.take_append_drop])
      have h2 := congrArg List.length he
      rw [List.length_take, sealedPart_length hP] at h2
      omega
    obtain ⟨j, _, hp, hx, _, hf⟩ := C62_session_async hP es hr hn hrun (.forged hns)
    exact ⟨by simpa using hp, fun h => by omega, fun _ h => hf (by simpa using h) rfl⟩

/-- C90 in the handshake, either API.  The first packet after the garbage, of `len` bytes of contents, has the bits
`d` of its length bytes changed, and is followed by any bytes that are not a packet of another length.  Where the
session waits for a packet of any length, the handshake refuses a length over 3999997 as soon as it has arrived. -/
theorem C90_handshake {A : Api} (hA : A = syncApi ∨ A = asyncApi) (hP : Lawful P) {magic : Bytes} {role : Role}
    {me : Peer} (hme : Ready P prof me) {reader tail : Source} {k : ErrorKind} {writer : Sink}
    (hw : writer.Reliable A.retry) (hend : EndsWith A.retry tail k) {key garbage more : Bytes} {len d : Nat}
    (hkey : key.length = 64) (hv1 : key.take 4 ≠ magic) (hg : garbage.length ≤ 4095) (hlen : len < 2 ^ 24)
    (hd : d < 2 ^ 24) (hd0 : d ≠ 0) (hmore : more.length < 2 ^ 35) :
    let D := (Spec.directions P magic (P.ellswift me.rng) key me.rng role.initiating).2
    (∀ j < garbage.length, ¬ Spec.OccursAt D.2.2 (garbage ++ D.2.2) j) →
    (∀ header contents rest, more = Spec.sealedPart P D.2.1 0 header garbage contents ++ rest →
      contents.length = len) →
    Streams false reader (key ++ (garbage ++ D.2.2 ++
      (Spec.xor (Spec.xor (Spec.le 3 len) (Spec.lengthMask P D.1 0)) (Spec.le 3 d) ++ more))) tail →
    (handshake A P prof magic role me.rng me.garbage me.decoys reader writer).2.2 =
      if 3999997 < len ^^^ d then .err (.internal .packetTooBig)
      else if more.length < (len ^^^ d) + 17 then .err (.fromIo k)
      else .err (.internal .decryption) := by
  intro D hno hu hs
  have hne : len ^^^ d ≠ len := by
    intro h
    apply hd0
    have := congrArg (len ^^^ ·) h
    simpa [← Nat.xor_assoc] using this
  have ha := announces_xor (P := P) D.1 0 hlen hd more
  have hbl := lengthBytes_length (P := P) D.1 0 (len ^^^ d)
  rw [lengthBytes_xor] at hs ha
  have hl := ha.1
  generalize len ^^^ d = L at *
  have hterm : D.2.2.length = 16 :=
    (Ref.directions_terminators hP magic (P.ellswift me.rng) key me.rng role.initiating).2
  generalize hbs : key ++ (garbage ++ D.2.2 ++ (Spec.xor (Spec.le 3 L) (Spec.lengthMask P D.1 0) ++ more)) = bs at hs
  have hbslen : bs.length = 64 + garbage.length + 16 + 3 + more.length := by
    rw [← hbs]; simp only [List.length_append, hbl, hterm, hkey]; omega
  have htake : bs.take 64 = key := by rw [← hbs]; exact take_append_len _ _ hkey.symm
  have hdrop : bs.drop 64 = garbage ++ D.2.2 ++ (Spec.xor (Spec.le 3 L) (Spec.lengthMask P D.1 0) ++ more) := by
    rw [← hbs]; exact drop_append_len _ _ hkey.symm
  obtain ⟨B, w', log, r, h1, -, -, h2⟩ := C62_library (me := me) (magic := magic) (role := role) hA hP hme hw hend
    (by omega) hs
  obtain ⟨-, v, hj, hf⟩ := h2 (by omega) (by
    rw [show bs.take 4 = (bs.take 64).take 4 by rw [List.take_take]; rfl, htake]; exact hv1)
  have hD : (me.directions P magic role bs).2 = D := by
    show (Spec.directions P magic _ (bs.take 64) _ _).2 = D
    rw [htake]
  rw [hD, hdrop] at hj
  have hv : ∀ v', Spec.JudgePackets libRules P D.1 D.2.1 0 garbage
      (Spec.xor (Spec.le 3 L) (Spec.lengthMask P D.1 0) ++ more) v' → v = v' :=
    fun v' h => judge_unique hP hj (.garbage hg hno h)
  rw [h1]
  show r = _
  have hlr : libRules.longest = 3999997 := rfl
  by_cases hbig : 3999997 < L
  · rw [if_pos hbig]
    obtain rfl := hv .tooBig (.tooBig ⟨L, ha, hbig⟩)
    obtain ⟨e, he, rfl⟩ := hf
    cases he; rfl
  rw [if_neg hbig]
  by_cases hshort : more.length < L + 17
  · rw [if_pos hshort]
    obtain rfl := hv .waits (.waits (.inr ⟨L, ha, by omega, by rw [List.length_append, hbl]; omega⟩))
    obtain ⟨e, he, rfl⟩ := hf
    cases he; rfl
  · rw [if_neg hshort]
    obtain rfl := hv .forged (.forged ⟨L, ha, by omega, by rw [List.length_append, hbl]; omega,
      fun header contents he => by
        rw [drop_append_len _ _ hbl.symm] at he
        have h3 := hu header contents (more.drop (L + 17)) (by rw [← he, List.take_append_drop])
        have h4 := congrArg List.length he
        rw [List.length_take, sealedPart_length hP] at h4
        omega⟩)
    obtain ⟨e, he, rfl⟩ := hf
    cases he; rfl

/-- A reader before packet number 0, whose three bytes of contents an attacker makes out to be `3 ^^^ 5 = 6`, and whose
packet it replaces by `k` bytes of its own. -/
def oracleReader (k : Nat) : SyncReader :=
  ⟨sampleIn, ⟨[], false, [.data (Spec.xor (Spec.xor (Spec.le 3 3) (Spec.lengthMask toy (leBytes 32 77) 0))
    (Spec.le 3 5) ++ List.replicate k 7)]⟩⟩

/-- It waits after 22 bytes and gives up after 23, and so `(22 - 16) ^^^ 5 = 3` is known. -/
example :
    (oracleReader 22).cipher.At toy (leBytes 32 77) (leBytes 32 99) 0 ∧
    Spec.Unforged toy (leBytes 32 99) 0 1 [(0, [1, 2, 3])] (List.replicate 22 7) ∧
    Spec.Unforged toy (leBytes 32 99) 0 1 [(0, [1, 2, 3])] (List.replicate 23 7) ∧
    ((oracleReader 22).read toy .debug).2 = .err (.fromIo .unexpectedEof) ∧
    ((oracleReader 23).read toy .debug).2 = .err (.internal .decryption) ∧
    (22 - 16) ^^^ 5 = 3 :=
  ⟨sampleIn_at, unforged_of_check (by decide +kernel), unforged_of_check (by decide +kernel), by decide +kernel,
    by decide +kernel, by decide⟩

/-- The asynchronous reader, cancelled in between. -/
example :
    let bs := Spec.xor (Spec.xor (Spec.le 3 3) (Spec.lengthMask toy (leBytes 32 77) 0)) (Spec.le 3 5)
    let r := fun k : Nat => (⟨sampleIn, ⟨bs, 0, [.pending, .data (List.replicate k 7), .pending, .pending]⟩,
      .initReadingLength⟩ : AsyncReader)
    ((r 22).run toy .debug [.poll, .cancel, .poll, .poll]).2 = [] ∧
    ((r 23).run toy .debug [.poll, .cancel, .poll, .poll]).2 =
      [.err (.internal .decryption), .err (.internal .decryption)] := by
  decide +kernel

/-- An initiator whose peer's first packet, of no contents, is made out to have `d`, followed by `k` bytes. -/
def oracleHandshake (d k : Nat) : Outcome ProtocolError (InboundCipher × OutboundCipher × SyncSession) :=
  (handshake syncApi toy .debug [1, 2, 3, 4] .initiator (leBytes 32 77) (some [42]) (some [[8]])
    [.data (toy.ellswift (leBytes 32 99) ++ ([9, 9, 9] ++ sampleDirections.2.2.2 ++
      (Spec.xor (Spec.xor (Spec.le 3 0) (Spec.lengthMask toy sampleDirections.2.1 0)) (Spec.le 3 d) ++
        List.replicate k 7)))] ⟨[], [], []⟩).2.2

example :
    (toy.ellswift (leBytes 32 99)).length = 64 ∧ (toy.ellswift (leBytes 32 99)).take 4 ≠ [1, 2, 3, 4] ∧
    (oracleHandshake 5 21 matches .err (.fromIo .unexpectedEof)) ∧
    (oracleHandshake 5 22 matches .err (.internal .decryption)) ∧
    (oracleHandshake (2 ^ 23) 0 matches .err (.internal .packetTooBig)) := by
  decide +kernel

end Bip324
