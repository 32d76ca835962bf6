import Verif.Model.PairTests
import Verif.Props.Interop
import Verif.Props.Bounded
import Verif.Props.UnitTests
import Verif.Lemmas.Segments

/-!
# The tests in which the library talks to a peer: C81

What the tests of `round_trips.rs` and `bitcoin_integration.rs` find out, for every peer, every network and every message,
and the three tests in which two asynchronous handshakes run against each other over a channel of tokio.
-/

namespace Bip324

variable {P : Prims} {prof : Profile}

/-! ## Specification -/

/-- Contents are dropped up to and including the first that is waited for; one that does not deserialise is a failure. -/
def dropUntil (done : Bytes → Option Bool) : List Bytes → Option (List Bytes)
  | [] => none
  | c :: cs =>
    match done c with
    | some true => some cs
    | some false => dropUntil done cs
    | none => none

/-- A test as a dialogue, without a network: from the contents of the packets that it receives, what it writes, and, if
it gets to its end, what it has not read. -/
def converse : List TestStep → List Bytes → List Bytes × Option (List Bytes)
  | [], cs => ([], some cs)
  | .write m :: steps, cs => (m :: (converse steps cs).1, (converse steps cs).2)
  | .expect _ :: _, [] => ([], none)
  | .expect ok :: steps, c :: cs => if ok c then converse steps cs else ([], none)
  | .answer _ :: _, [] => ([], none)
  | .answer reply :: steps, c :: cs =>
    match reply c with
    | some m => (m :: (converse steps cs).1, (converse steps cs).2)
    | none => ([], none)
  | .until done :: steps, cs =>
    match dropUntil done cs with
    | some cs => converse steps cs
    | none => ([], none)

/-- The verdict: all statements are done, and if the connection has to be closed then, nothing is left. -/
def passes (steps : List TestStep) (closed : Bool) (cs : List Bytes) : Bool :=
  match (converse steps cs).2 with
  | some rest => !closed || rest.isEmpty
  | none => false

/-- The BIP-324 packets of these messages, the first of them number `n` of its direction. -/
def packetsFrom (P : Prims) (kL kP : Bytes) : Nat → List (PacketType × Bytes) → Bytes
  | _, [] => []
  | n, (t, c) :: ms => Spec.packet P kL kP n (t == .decoy) [] c ++ packetsFrom P kL kP (n + 1) ms

/-- Genuine messages. -/
def asGenuine (cs : List Bytes) : List (PacketType × Bytes) := cs.map fun c => (.genuine, c)

/-! ## Any connection that delivers -/

/-- A connection on which writes succeed and reads return what the peer sends, and then fail.  `I`: what is still to be
read; `W`: what has been written, of at most `N` messages. -/
structure TestDriver.Serves {σ : Type} (D : TestDriver σ) (N : Nat) (W : σ → List Bytes → Prop)
    (I : σ → List Bytes → Prop) : Prop where
  write : ∀ s cs ws m, W s ws → I s cs → ws.length < N → ∃ s', D.write s (.genuine m) = (s', .ok ()) ∧
    W s' (ws ++ [m]) ∧ I s' cs
  some : ∀ s c cs ws, W s ws → I s (c :: cs) → ∃ s' p, D.read s = (s', .ok p) ∧ p.contents = some c ∧ W s' ws ∧ I s' cs
  none : ∀ s ws, W s ws → I s [] → ∃ s' e, D.read s = (s', .err e) ∧ W s' ws

section Generic

variable {σ : Type} {D : TestDriver σ} {N : Nat} {W : σ → List Bytes → Prop} {I : σ → List Bytes → Prop}

theorem readUntil_serves (hD : D.Serves N W I) (done : Bytes → Option Bool) (cs : List Bytes) (fuel : Nat)
    (hf : cs.length < fuel) (s : σ) (ws : List Bytes) (hw : W s ws) (hi : I s cs) :
    ∃ s', D.readUntil done fuel s = (s', (dropUntil done cs).map fun _ => ()) ∧ W s' ws ∧
      ∀ r, dropUntil done cs = some r → I s' r := by
  induction cs generalizing fuel s with
  | nil =>
    obtain ⟨fuel, rfl⟩ : ∃ n, fuel = n + 1 := ⟨fuel - 1, by omega⟩
    obtain ⟨s', e, h1, h2⟩ := hD.none s ws hw hi
    exact ⟨s', by simp only [TestDriver.readUntil, h1, dropUntil]; rfl, h2, by simp [dropUntil]⟩
  | cons c cs ih =>
    obtain ⟨fuel, rfl⟩ : ∃ n, fuel = n + 1 := ⟨fuel - 1, by omega⟩
    obtain ⟨s', p, h1, h2, h3, h4⟩ := hD.some s c cs ws hw hi
    simp only [List.length_cons] at hf
    simp only [TestDriver.readUntil, h1, dropUntil, h2, Option.bind_some]
    cases hd : done c with
    | none => exact ⟨s', rfl, h3, by simp⟩
    | some b =>
      cases b with
      | true => exact ⟨s', rfl, h3, fun r hr => by simp only [Option.some.injEq] at hr; exact hr ▸ h4⟩
      | false => exact ih fuel (by omega) s' h3 h4

theorem dropUntil_length {done : Bytes → Option Bool} {cs r : List Bytes} (h : dropUntil done cs = some r) :
    r.length ≤ cs.length := by
  induction cs with
  | nil => cases h
  | cons c cs ih =>
    simp only [dropUntil] at h
    split at h
    · cases h; simp
    · have := ih h; simp only [List.length_cons]; omega
    · cases h

theorem perform_serves (hD : D.Serves N W I) (steps : List TestStep) (cs : List Bytes) (fuel : Nat)
    (hf : cs.length < fuel) (s : σ) (ws : List Bytes) (hn : ws.length + steps.length ≤ N) (hw : W s ws) (hi : I s cs) :
    ∃ s', D.perform fuel steps s = (s', (converse steps cs).2.map fun _ => ()) ∧ W s' (ws ++ (converse steps cs).1) ∧
      ∀ r, (converse steps cs).2 = some r → I s' r := by
  induction steps generalizing cs s ws with
  | nil => exact ⟨s, rfl, by simpa [converse] using hw, fun r hr => by simp only [converse, Option.some.injEq] at hr; exact hr ▸ hi⟩
  | cons st steps ih =>
    simp only [List.length_cons] at hn
    cases st with
    | write m =>
      obtain ⟨s1, h1, h2, h3⟩ := hD.write s cs ws m hw hi (by omega)
      obtain ⟨s2, g1, g2, g3⟩ := ih cs hf s1 (ws ++ [m]) (by simp only [List.length_append, List.length_singleton]; omega) h2 h3
      refine ⟨s2, by simp only [TestDriver.perform, h1, converse]; exact g1, ?_, g3⟩
      simpa [converse] using g2
    | expect ok =>
      cases cs with
      | nil =>
        obtain ⟨s', e, h1, h2⟩ := hD.none s ws hw hi
        exact ⟨s', by simp only [TestDriver.perform, h1, converse]; rfl, by simpa [converse] using h2, by simp [converse]⟩
      | cons c cs =>
        obtain ⟨s1, p, h1, h2, h3, h4⟩ := hD.some s c cs ws hw hi
        simp only [List.length_cons] at hf
        simp only [TestDriver.perform, h1, h2, converse]
        by_cases hok : ok c = true
        · simp only [hok, if_true]
          exact ih cs (by omega) s1 ws (by omega) h3 h4
        · simp only [hok, Bool.false_eq_true, if_false]
          exact ⟨s1, rfl, by simpa using h3, by simp⟩
    | answer reply =>
      cases cs with
      | nil =>
        obtain ⟨s', e, h1, h2⟩ := hD.none s ws hw hi
        exact ⟨s', by simp only [TestDriver.perform, h1, converse]; rfl, by simpa [converse] using h2, by simp [converse]⟩
      | cons c cs =>
        obtain ⟨s1, p, h1, h2, h3, h4⟩ := hD.some s c cs ws hw hi
        simp only [List.length_cons] at hf
        simp only [TestDriver.perform, h1, h2, converse, Option.bind_some]
        cases hr : reply c with
        | none => exact ⟨s1, rfl, by simpa using h3, by simp⟩
        | some m =>
          obtain ⟨s2, g1, g2, g3⟩ := hD.write s1 cs ws m h3 h4 (by omega)
          obtain ⟨s3, k1, k2, k3⟩ := ih cs (by omega) s2 (ws ++ [m])
            (by simp only [List.length_append, List.length_singleton]; omega) g2 g3
          exact ⟨s3, by simp only [g1]; exact k1, by simpa using k2, k3⟩
    | «until» done =>
      obtain ⟨s1, h1, h2, h3⟩ := readUntil_serves hD done cs fuel hf s ws hw hi
      simp only [TestDriver.perform, h1, converse]
      cases hd : dropUntil done cs with
      | none => exact ⟨s1, rfl, by simpa using h2, by simp⟩
      | some r =>
        have := dropUntil_length hd
        exact ih r (by omega) s1 ws (by omega) h2 (h3 r hd)

theorem test_serves (hD : D.Serves N W I) (steps : List TestStep) (closed : Bool) (cs : List Bytes) (fuel : Nat)
    (hf : cs.length < fuel) (s : σ) (hn : steps.length ≤ N) (hw : W s []) (hi : I s cs) :
    ∃ s', D.test fuel steps closed s = (s', passes steps closed cs) ∧ W s' (converse steps cs).1 := by
  obtain ⟨s1, h1, h2, h3⟩ := perform_serves hD steps cs fuel hf s [] (by simpa using hn) hw hi
  unfold TestDriver.test passes
  rw [h1]
  rw [List.nil_append] at h2
  cases hc : (converse steps cs).2 with
  | none => exact ⟨s1, rfl, h2⟩
  | some rest =>
    simp only [Option.map_some]
    cases closed with
    | false => exact ⟨s1, rfl, h2⟩
    | true =>
      simp only [if_true]
      have hi1 := h3 rest hc
      cases rest with
      | nil =>
        obtain ⟨s2, e, g1, g2⟩ := hD.none s1 _ h2 hi1
        exact ⟨s2, by rw [g1]; rfl, g2⟩
      | cons c rest =>
        obtain ⟨s2, p, g1, -, g2, -⟩ := hD.some s1 c rest _ h2 hi1
        exact ⟨s2, by rw [g1]; rfl, g2⟩

end Generic

/-! ## The connections of the library deliver -/

theorem backlog_packets (hP : Lawful P) {kL kP : Bytes} {n : Nat} {o : OutboundCipher} (h : OutboundCipher.At P kL kP n o)
    (ms : List (PacketType × Bytes)) (hn : n + ms.length < 2 ^ 32) (hz : ∀ m ∈ ms, m.2.length < 2 ^ 24) :
    Backlog P prof o ms (packetsFrom P kL kP n ms) := by
  induction ms generalizing n o with
  | nil => rfl
  | cons m ms ih =>
    obtain ⟨t, c⟩ := m
    simp only [List.length_cons] at hn
    obtain ⟨o', h', e⟩ := h.encryptToVec (prof := prof) hP (by omega) c t none
    exact ⟨o', _, _, hz _ List.mem_cons_self, e, rfl, ih h' (by omega) fun m hm => hz m (List.mem_cons_of_mem _ hm)⟩

theorem packetsFrom_append (kL kP : Bytes) (n : Nat) (a b : List (PacketType × Bytes)) :
    packetsFrom P kL kP n (a ++ b) = packetsFrom P kL kP n a ++ packetsFrom P kL kP (n + a.length) b := by
  induction a generalizing n with
  | nil => simp [packetsFrom]
  | cons m a ih =>
    simp only [List.cons_append, packetsFrom, ih, List.length_cons, List.append_assoc]
    rw [show n + (a.length + 1) = n + 1 + a.length by omega]

/-- What a writer has written: packets numbered from `n`, after the bytes `base`. -/
def Wrote (P : Prims) (kL kP : Bytes) (n : Nat) (retry : Bool) (base : Bytes) (w : Writer) (ws : List Bytes) : Prop :=
  OutboundCipher.At P kL kP (n + ws.length) w.cipher ∧ w.writer.Reliable retry ∧
    w.writer.out = base ++ packetsFrom P kL kP n (asGenuine ws)

theorem wrote_write (hP : Lawful P) {kL kP : Bytes} {n : Nat} (f : Flavour) {base : Bytes} {w : Writer} {ws : List Bytes}
    (h : Wrote P kL kP n f.retry base w ws) (hn : n + ws.length + 1 < 2 ^ 32) (m : Bytes) :
    ∃ w', w.write f P prof (.genuine m) = (w', .ok ()) ∧ Wrote P kL kP n f.retry base w' (ws ++ [m]) := by
  obtain ⟨h1, h2, h3⟩ := h
  obtain ⟨o', g1, g2⟩ := h1.encryptToVec (prof := prof) hP hn m .genuine none
  obtain ⟨s, e, ho, hr⟩ := C34_reliable (P := P) (prof := prof) f w (.genuine m) (t := .genuine) (c := m) ⟨rfl, rfl⟩ g2 h2
  refine ⟨_, e, ?_, hr, ?_⟩
  · simpa [Nat.add_assoc] using g1
  · rw [ho, h3, List.append_assoc, show asGenuine (ws ++ [m]) = asGenuine ws ++ [(.genuine, m)] by simp [asGenuine],
      packetsFrom_append]
    simp [asGenuine, packetsFrom]

/-- What a blocking reader is going to return. -/
def SyncReader.Holds (P : Prims) (prof : Profile) (k : ErrorKind) (tail : Source) (r : SyncReader) (cs : List Bytes) : Prop :=
  EndsWith true tail k ∧ ∃ o ms bs, Matching o r.cipher ∧ Backlog P prof o ms bs ∧ ms.map (·.2) = cs ∧
    (∀ m ∈ ms, m.2.length ≤ 4000013) ∧ SyncStreams r.reader bs tail

theorem sync_serves (hP : Lawful P) {kL kP : Bytes} {n N : Nat} (hn : n + N < 2 ^ 32) (base : Bytes) (k : ErrorKind)
    (tail : Source) :
    (syncDriver P prof).Serves N (fun p ws => Wrote P kL kP n true base p.writer ws)
      (fun p cs => SyncReader.Holds P prof k tail p.reader cs) where
  write := by
    intro p cs ws m hw hi hlt
    obtain ⟨w', e, hw'⟩ := wrote_write (prof := prof) hP .sync hw (by omega) m
    exact ⟨{ p with writer := w' }, by
      show SyncProtocol.write P prof p (.genuine m) = _
      unfold SyncProtocol.write
      rw [show p.writer.writeSync P prof (.genuine m) = (w', .ok ()) from e], hw', hi⟩
  some := by
    rintro p c cs ws hw ⟨he, o, ms, bs, hm, hb, hmap, hz, hs⟩
    cases ms with
    | nil => cases hmap
    | cons m ms =>
      obtain ⟨t, c'⟩ := m
      obtain ⟨o', pkt, rest, -, henc, rfl, hb'⟩ := hb
      simp only [List.map_cons, List.cons.injEq] at hmap
      obtain ⟨rfl, hmap⟩ := hmap
      obtain ⟨r', e1, hm', hs'⟩ := sync_read_one (prof := prof) hP he hm (hz _ List.mem_cons_self) henc hs
      refine ⟨{ p with reader := r' }, .decrypted (t.toByte :: c'), ?_, rfl, hw, he, o', ms, rest, hm', hb', hmap,
        fun m hm => hz m (List.mem_cons_of_mem _ hm), hs'⟩
      show SyncProtocol.read P prof p = _
      unfold SyncProtocol.read
      rw [e1]
  none := by
    rintro p ws hw ⟨he, o, ms, bs, -, hb, hmap, -, hs⟩
    rw [List.map_eq_nil_iff] at hmap
    subst hmap
    cases hb
    obtain ⟨s, e⟩ := sync_read_end (P := P) (prof := prof) he hs
    refine ⟨{ p with reader := { p.reader with reader := s } }, .fromIo k, ?_, hw⟩
    show SyncProtocol.read P prof p = _
    unfold SyncProtocol.read
    rw [e]

/-! ### Asynchronous reads without failures -/

theorem AsyncSession.remaining_abs (s : AsyncSession) : s.remaining = Source.bytes s.abs := by
  unfold AsyncSession.abs AsyncSession.remaining
  split
  · rfl
  · rename_i h
    rw [List.drop_of_length_le (Nat.le_of_not_lt h), List.nil_append]

/-- The transport delivers non-empty pieces, with pauses, and then the connection ends or fails. -/
def AsyncSession.Quiet (tail : Source) (s : AsyncSession) : Prop := ∃ c, Smooth false c ∧ s.abs = c ++ tail

theorem quiet_pollRead {tail : Source} (ht : tail = [] ∨ ∃ k, tail = [.fail k]) {s s' : AsyncSession} {n : Nat}
    {r : PollRead} (hn : 0 < n) (hq : s.Quiet tail) (h : s.pollRead n = (s', r)) :
    (s'.Quiet tail ∧ (r = .pending ∨ ∃ b bs, r = .ready (.ok (b :: bs)))) ∨
      (s'.remaining = [] ∧ (r = .ready (.ok []) ∨ ∃ k, r = .ready (.err k))) := by
  have h := AsyncSession.pollRead_abs s n s' r h
  obtain ⟨c, hc, ha⟩ := hq
  rw [ha] at h
  cases c with
  | nil =>
    right
    rw [AsyncSession.remaining_abs]
    rcases ht with rfl | ⟨k, rfl⟩
    · simp only [List.append_nil, Source.pollRead, Prod.mk.injEq] at h
      exact ⟨by rw [← h.1]; rfl, .inl h.2.symm⟩
    · simp only [List.nil_append, Source.pollRead, Prod.mk.injEq] at h
      exact ⟨by rw [← h.1]; rfl, .inr ⟨k, h.2.symm⟩⟩
  | cons e c =>
    left
    have hc' : Smooth false c := fun e he => hc e (List.mem_cons_of_mem _ he)
    rcases hc e List.mem_cons_self with rfl | ⟨b, bs, rfl⟩ | ⟨h', -⟩
    · simp only [List.cons_append, Source.pollRead, Prod.mk.injEq] at h
      exact ⟨⟨c, hc', h.1.symm⟩, .inl h.2.symm⟩
    · simp only [List.cons_append, Source.pollRead] at h
      split at h
      · simp only [Prod.mk.injEq] at h
        exact ⟨⟨c, hc', h.1.symm⟩, .inr ⟨b, bs, h.2.symm⟩⟩
      · rename_i hlt
        obtain ⟨n, rfl⟩ : ∃ m, n = m + 1 := ⟨n - 1, by omega⟩
        simp only [Prod.mk.injEq, List.drop_succ_cons, List.take_succ_cons] at h
        refine ⟨⟨.data (bs.drop n) :: c, ?_, h.1.symm⟩, .inr ⟨b, bs.take n, h.2.symm⟩⟩
        intro e he
        rcases List.mem_cons.1 he with rfl | he
        · cases hd : bs.drop n with
          | nil =>
            have := congrArg List.length hd
            simp only [List.length_drop, List.length_nil, List.length_cons] at this hlt
            omega
          | cons b' bs' => exact .inr (.inl ⟨b', bs', rfl⟩)
        · exact hc' e he
    · cases h'

theorem quiet_pollFill {tail : Source} (ht : tail = [] ∨ ∃ k, tail = [.fail k]) (s : AsyncSession) (buf : Bytes) (n : Nat)
    (hn : n ≤ buf.length) (hq : s.Quiet tail) :
    match pollFill s buf n with
    | .full s' _ _ => s'.Quiet tail
    | .pending s' _ _ => s'.Quiet tail
    | .err s' _ _ _ => s'.remaining = [] := by
  induction hsz : s.size using Nat.strongRecOn generalizing s buf n with
  | ind m ih =>
  rw [pollFill_eq]
  by_cases hlt : n < buf.length
  · rw [if_pos hlt]
    cases hr : s.pollRead (buf.length - n) with
    | mk s1 r =>
    have hdec := AsyncSession.pollRead_dec _ _ _ _ (by omega) hr
    have hrem := AsyncSession.pollRead_remaining s _ hr
    rcases quiet_pollRead ht (by omega) hq hr with ⟨h1, rfl | ⟨b, bs, rfl⟩⟩ | ⟨h1, rfl | ⟨k, rfl⟩⟩
    · exact h1
    · simp only [reduceCtorEq, and_false, or_false, PollRead.ready.injEq, ReadRes.ok.injEq] at hdec
      simp only at hrem
      have hl : (writeAt buf n (b :: bs)).length = buf.length := writeAt_length (by omega)
      exact ih s1.size (by omega) s1 (writeAt buf n (b :: bs)) (n + (b :: bs).length) (by rw [hl]; omega) h1 rfl
    · exact h1
    · exact h1
  · rw [if_neg hlt]
    exact hq

/-- The part of the buffer that is being filled is not full. -/
def DecryptState.Short : DecryptState → Prop
  | .readingLength buf n => n < buf.length
  | .readingPayload buf n => n < buf.length

theorem fromIo_ne (e : Error) (k : ErrorKind) : ProtocolError.internal e ≠ .fromIo k := by cases k <;> simp [ProtocolError.fromIo]

theorem quiet_pollPayload {tail : Source} (ht : tail = [] ∨ ∃ k, tail = [.fail k]) (c : InboundCipher) (s : AsyncSession)
    (buf : Bytes) (n : Nat) (hn : n ≤ buf.length) (hq : s.Quiet tail) {r' : AsyncReader} {x : PollResult}
    (h : AsyncReader.pollPayload P prof c s buf n = (r', x)) :
    (r'.reader.Quiet tail ∧ ∀ k, x ≠ .ready (.err (.fromIo k))) ∨
      (r'.reader.remaining = [] ∧ r'.state.Short ∧ ∃ e, x = .ready (.err e)) := by
  have h1 := quiet_pollFill ht s buf n hn hq
  have h2 := pollFill_spec s buf n hn
  unfold AsyncReader.pollPayload at h
  cases hf : pollFill s buf n with
  | pending s1 b m =>
    rw [hf] at h h1
    cases h
    exact .inl ⟨h1, by simp⟩
  | err s1 b m k =>
    rw [hf] at h h1 h2
    cases h
    exact .inr ⟨h1, h2.1, _, rfl⟩
  | full s1 b m =>
    rw [hf] at h h1
    simp only at h
    left
    split at h
    · cases h; exact ⟨h1, by simp⟩
    · split at h
      · cases h; exact ⟨h1, by simp⟩
      · cases h; exact ⟨h1, by simp [fromIo_ne]⟩
      · split at h
        · cases h; exact ⟨h1, by simp⟩
        · cases h; exact ⟨h1, by simp⟩

theorem quiet_poll {tail : Source} (ht : tail = [] ∨ ∃ k, tail = [.fail k]) {r r' : AsyncReader} {x : PollResult}
    (hb : ∀ buf n, r.state = .readingLength buf n ∨ r.state = .readingPayload buf n → n ≤ buf.length)
    (hq : r.reader.Quiet tail) (h : r.poll P prof = (r', x)) :
    (r'.reader.Quiet tail ∧ ∀ k, x ≠ .ready (.err (.fromIo k))) ∨
      (r'.reader.remaining = [] ∧ r'.state.Short ∧ ∃ e, x = .ready (.err e)) := by
  obtain ⟨c, s, st⟩ := r
  unfold AsyncReader.poll at h
  cases st with
  | readingPayload buf n => exact quiet_pollPayload ht c s buf n (hb buf n (.inr rfl)) hq h
  | readingLength buf n =>
    have hn := hb buf n (.inl rfl)
    have h1 := quiet_pollFill ht s buf n hn hq
    have h2 := pollFill_spec s buf n hn
    simp only at h
    cases hf : pollFill s buf n with
    | pending s1 b m =>
      rw [hf] at h h1
      cases h
      exact .inl ⟨h1, by simp⟩
    | err s1 b m k =>
      rw [hf] at h h1 h2
      cases h
      exact .inr ⟨h1, h2.1, _, rfl⟩
    | full s1 b m =>
      rw [hf] at h h1
      simp only at h
      split at h
      · cases h; exact .inl ⟨h1, by simp⟩
      · cases h; exact .inl ⟨h1, by simp [fromIo_ne]⟩
      · exact quiet_pollPayload ht _ _ _ _ (Nat.zero_le _) h1 h

theorem inv_bounds {r : AsyncReader} {ms : List (PacketType × Bytes)} (h : r.Inv P prof ms) (buf : Bytes) (n : Nat)
    (hs : r.state = .readingLength buf n ∨ r.state = .readingPayload buf n) : n ≤ buf.length := by
  obtain ⟨c, s, st⟩ := r
  unfold AsyncReader.Inv at h
  rcases hs with rfl | rfl
  · simp only at h; omega
  · exact h.1

theorem inv_short (hP : Lawful P) {r : AsyncReader} {ms : List (PacketType × Bytes)} (h : r.Inv P prof ms)
    (hr : r.reader.remaining = []) (hs : r.state.Short) : ms = [] := by
  obtain ⟨c, s, st⟩ := r
  unfold AsyncReader.Inv at h
  simp only at hr
  cases st with
  | readingLength buf n =>
    simp only [hr, List.append_nil] at h
    obtain ⟨h3, hn, o, -, hb⟩ := h
    cases ms with
    | nil => rfl
    | cons m ms =>
      obtain ⟨t, c⟩ := m
      obtain ⟨o', pkt, rest, -, he, hw, -⟩ := hb
      have := packet_length hP he
      have h4 := congrArg List.length hw
      simp only [List.length_take, List.length_append] at h4
      omega
  | readingPayload buf n =>
    simp only [hr, List.append_nil] at h
    obtain ⟨hn, i, o, o', t, c, ms', w, rest, -, -, -, -, -, hl, hw, -⟩ := h
    have h4 := congrArg List.length hw
    simp only [DecryptState.Short] at hs
    simp only [List.length_take, List.length_append] at h4
    omega

theorem await_quiet (hP : Lawful P) {tail : Source} (ht : tail = [] ∨ ∃ k, tail = [.fail k]) (fuel : Nat) (r : AsyncReader)
    (ms : List (PacketType × Bytes)) (hf : r.reader.size < fuel) (hi : r.Inv P prof ms) (hq : r.reader.Quiet tail) :
    ∃ r', (∃ t c ms', ms = (t, c) :: ms' ∧ r.await P prof fuel = (r', .ok (.decrypted (t.toByte :: c))) ∧
        r'.Inv P prof ms' ∧ r'.reader.Quiet tail) ∨
      (ms = [] ∧ ∃ e, r.await P prof fuel = (r', .err e)) := by
  induction fuel generalizing r with
  | zero => omega
  | succ fuel ih =>
    have hst := AsyncReader.poll_step hP r ms hi
    cases hp : r.poll P prof with
    | mk r1 x =>
    have hq1 := quiet_poll ht (inv_bounds hi) hq hp
    rw [hp] at hst
    obtain ⟨hle, hst⟩ := hst
    simp only at hle hst
    cases x with
    | pending =>
      rcases hq1 with ⟨hq1, -⟩ | ⟨-, -, e, he⟩
      · obtain ⟨r', hr'⟩ := ih r1 (by have := hst.2; omega) hst.1 hq1
        refine ⟨r', ?_⟩
        simp only [AsyncReader.await, hp]
        exact hr'
      · cases he
    | ready y =>
      cases y with
      | panic => exact hst.elim
      | ok p =>
        obtain ⟨t, c, ms', rfl, rfl, hinv⟩ := hst
        rcases hq1 with ⟨hq1, -⟩ | ⟨-, -, e, he⟩
        · exact ⟨r1, .inl ⟨t, c, ms', rfl, by simp only [AsyncReader.await, hp], hinv, hq1⟩⟩
        · cases he
      | err e =>
        obtain ⟨hk, hinv, -⟩ := hst
        refine ⟨r1, .inr ⟨?_, e, by simp only [AsyncReader.await, hp]⟩⟩
        rcases hq1 with ⟨-, hq1⟩ | ⟨h1, h2, -⟩
        · obtain ⟨k, rfl⟩ := hk
          exact absurd rfl (hq1 k)
        · exact inv_short hP hinv h1 h2

/-- What an asynchronous reader is going to return. -/
def AsyncReader.Holds (P : Prims) (prof : Profile) (tail : Source) (r : AsyncReader) (cs : List Bytes) : Prop :=
  (tail = [] ∨ ∃ k, tail = [.fail k]) ∧ r.reader.Quiet tail ∧ ∃ ms, r.Inv P prof ms ∧ ms.map (·.2) = cs

theorem async_serves (hP : Lawful P) {kL kP : Bytes} {n N : Nat} (hn : n + N < 2 ^ 32) (base : Bytes) (tail : Source) :
    (asyncDriver P prof).Serves N (fun p ws => Wrote P kL kP n false base p.writer ws)
      (fun p cs => AsyncReader.Holds P prof tail p.reader cs) where
  write := by
    intro p cs ws m hw hi hlt
    obtain ⟨w', e, hw'⟩ := wrote_write (prof := prof) hP .async hw (by omega) m
    exact ⟨{ p with writer := w' }, by
      show AsyncProtocol.write P prof p (.genuine m) = _
      unfold AsyncProtocol.write
      rw [show p.writer.writeAsync P prof (.genuine m) = (w', .ok ()) from e], hw', hi⟩
  some := by
    rintro p c cs ws hw ⟨ht, hq, ms, hi, hmap⟩
    obtain ⟨r', ⟨t, c', ms', rfl, e, hi', hq'⟩ | ⟨rfl, -⟩⟩ := await_quiet hP ht (p.reader.reader.size + 1) p.reader ms
      (by omega) hi hq
    · simp only [List.map_cons, List.cons.injEq] at hmap
      obtain ⟨rfl, hmap⟩ := hmap
      exact ⟨{ p with reader := r' }, .decrypted (t.toByte :: c'), by simp only [asyncDriver, e], rfl, hw, ht, hq', ms', hi', hmap⟩
    · cases hmap
  none := by
    rintro p ws hw ⟨ht, hq, ms, hi, hmap⟩
    obtain ⟨r', ⟨t, c', ms', rfl, -⟩ | ⟨-, e, he⟩⟩ := await_quiet hP ht (p.reader.reader.size + 1) p.reader ms
      (by omega) hi hq
    · cases hmap
    · exact ⟨{ p with reader := r' }, e, by simp only [asyncDriver, he], hw⟩

/-! ## C81: tests against any peer -/

/-- The number of the first packet of a party after its handshake. -/
def Peer.first (p : Peer) : Nat := (p.decoys.getD []).length + 1

/-- C81: a test whose peer sends the packets `ms`, and then closes the connection or loses it, passes exactly if the
dialogue does, and what it has written by then are the packets of the dialogue: over every network that cuts the bytes
into any pieces, with the synchronous and with the asynchronous API, in both roles, with any garbage and decoys in the
handshakes.  The types of the packets do not matter. -/
theorem C81_tests (hP : Lawful P) {magic : Bytes} {I R : Peer} (H : Honest P prof magic I R) :
    ∃ kL kP : Role → Bytes, ∀ (role : Role) (steps : List TestStep) (closed : Bool) (ms : List (PacketType × Bytes))
      (fuel : Nat), ms.length < fuel → (role.peer.of I R).first + ms.length < 2 ^ 32 →
      (role.of I R).first + steps.length < 2 ^ 32 →
      ((∀ m ∈ ms, m.2.length ≤ 4000013) → ∀ (w : Sink) (src tail : Source) (k : ErrorKind), w.Reliable true →
        EndsWith true tail k →
        Streams false src (flight P magic I R role.peer ++
          packetsFrom P (kL role.peer) (kP role.peer) (role.peer.of I R).first ms) tail →
        ∃ p, syncTest P prof magic role (role.of I R).rng (role.of I R).garbage (role.of I R).decoys src w fuel steps closed
            = some (p, passes steps closed (ms.map (·.2))) ∧
          p.writer.writer.out = w.out ++ (flight P magic I R role ++
            packetsFrom P (kL role) (kP role) (role.of I R).first (asGenuine (converse steps (ms.map (·.2))).1))) ∧
      ((∀ m ∈ ms, m.2.length < 2 ^ 24) → ∀ (w : Sink) (src tail : Source), w.Reliable false →
        (tail = [] ∨ ∃ k, tail = [.fail k]) →
        Streams false src (flight P magic I R role.peer ++
          packetsFrom P (kL role.peer) (kP role.peer) (role.peer.of I R).first ms) tail →
        ∃ p, asyncTest P prof magic role (role.of I R).rng (role.of I R).garbage (role.of I R).decoys src w fuel steps closed
            = some (p, passes steps closed (ms.map (·.2))) ∧
          p.writer.writer.out = w.out ++ (flight P magic I R role ++
            packetsFrom P (kL role) (kP role) (role.of I R).first (asGenuine (converse steps (ms.map (·.2))).1))) := by
  obtain ⟨i, o, hm, f, hat⟩ := honest_roles hP H
  refine ⟨fun role => (hat role).choose, fun role => (hat role).choose_spec.choose, ?_⟩
  intro role steps closed ms fuel hf hn1 hn2
  have h1 := (hat role).choose_spec.choose_spec
  have h2 := (hat role.peer).choose_spec.choose_spec
  have hpp : role.peer.peer = role := by cases role <;> rfl
  have hmm := hm role.peer
  rw [hpp] at hmm
  constructor
  · intro hz w src tail k hw he hs
    obtain ⟨w', log, s, hh, hr, ho, st⟩ := f role syncApi syncAbs w src tail k _ hw he hs
    obtain ⟨p, e, hW⟩ := test_serves (sync_serves (prof := prof) hP (kL := (hat role).choose)
      (kP := (hat role).choose_spec.choose) (n := (role.of I R).first) (N := steps.length) hn2
      (w.out ++ flight P magic I R role) k tail) steps closed (ms.map (·.2)) fuel (by simpa using hf)
      ⟨⟨i role, s⟩, ⟨o role, w'⟩⟩ (Nat.le_refl _) ⟨by simpa [Peer.first] using h1, hr, by simp [ho, asGenuine, packetsFrom]⟩
      ⟨he, o role.peer, ms, _, hmm, backlog_packets hP h2 ms hn1 (fun m hm => by have := hz m hm; omega), rfl, hz, st⟩
    refine ⟨p, ?_, by rw [hW.2.2, List.append_assoc]⟩
    unfold syncTest SyncProtocol.new
    rw [hh]
    simp only [e]
  · intro hz w src tail hw ht hs
    have he : ∃ k, EndsWith false tail k := by
      rcases ht with rfl | ⟨k, rfl⟩
      · exact ⟨_, .inl ⟨rfl, rfl⟩⟩
      · exact ⟨k, .inr (.inr ⟨[], rfl, by simp⟩)⟩
    obtain ⟨k, he⟩ := he
    obtain ⟨w', log, s, hh, hr, ho, st⟩ := f role asyncApi asyncAbs w src tail k _ hw he hs
    have hrem := async_remaining st
    have htb : Source.bytes tail = [] := by rcases ht with rfl | ⟨k, rfl⟩ <;> rfl
    rw [htb, List.append_nil] at hrem
    obtain ⟨c, hc1, hc2, -⟩ := st
    obtain ⟨p, e, hW⟩ := test_serves (async_serves (prof := prof) hP (kL := (hat role).choose)
      (kP := (hat role).choose_spec.choose) (n := (role.of I R).first) (N := steps.length) hn2
      (w.out ++ flight P magic I R role) tail) steps closed (ms.map (·.2)) fuel (by simpa using hf)
      ⟨⟨i role, s, .initReadingLength⟩, ⟨o role, w'⟩⟩ (Nat.le_refl _)
      ⟨by simpa [Peer.first] using h1, hr, by simp [ho, asGenuine, packetsFrom]⟩
      ⟨ht, ⟨c, hc1, hc2⟩, ms, ⟨rfl, by omega, o role.peer, hmm, by
        simpa [hrem, Peer.first] using backlog_packets (prof := prof) hP h2 ms hn1 hz⟩, rfl⟩
    refine ⟨p, ?_, by rw [hW.2.2, List.append_assoc]⟩
    unfold asyncTest AsyncProtocol.new
    rw [hh]
    simp only [e]

/-- A test with one of the two APIs, in a role: everything it has sent, and whether it passes. -/
def runTest (f : Flavour) (P : Prims) (prof : Profile) (magic : Bytes) (I R : Peer) (role : Role) (src : Source) (w : Sink)
    (steps : List TestStep) (closed : Bool) (fuel : Nat) : Option (Bytes × Bool) :=
  match f with
  | .sync => (syncTest P prof magic role (role.of I R).rng (role.of I R).garbage (role.of I R).decoys src w fuel steps
      closed).map fun x => (x.1.writer.writer.out, x.2)
  | .async => (asyncTest P prof magic role (role.of I R).rng (role.of I R).garbage (role.of I R).decoys src w fuel steps
      closed).map fun x => (x.1.writer.writer.out, x.2)

/-- The connection is closed, or lost; an interrupted call, after which the blocking API goes on, is neither. -/
def Ended (tail : Source) : Prop := tail = [] ∨ ∃ k, k ≠ .interrupted ∧ tail = [.fail k]

theorem runTest_eq (hP : Lawful P) {magic : Bytes} {I R : Peer} (H : Honest P prof magic I R) :
    ∃ kL kP : Role → Bytes, ∀ (f : Flavour) (role : Role) (steps : List TestStep) (closed : Bool)
      (ms : List (PacketType × Bytes)) (fuel : Nat), ms.length < fuel → (role.peer.of I R).first + ms.length < 2 ^ 32 →
      (role.of I R).first + steps.length < 2 ^ 32 → (∀ m ∈ ms, m.2.length ≤ 4000013) →
      ∀ (w : Sink) (src tail : Source), w.Reliable f.retry → Ended tail →
        Streams false src (flight P magic I R role.peer ++
          packetsFrom P (kL role.peer) (kP role.peer) (role.peer.of I R).first ms) tail →
        runTest f P prof magic I R role src w steps closed fuel = some (w.out ++ (flight P magic I R role ++
            packetsFrom P (kL role) (kP role) (role.of I R).first (asGenuine (converse steps (ms.map (·.2))).1)),
          passes steps closed (ms.map (·.2))) := by
  obtain ⟨kL, kP, h⟩ := C81_tests hP H
  refine ⟨kL, kP, ?_⟩
  intro f role steps closed ms fuel hf h1 h2 hz w src tail hw ht hs
  obtain ⟨g1, g2⟩ := h role steps closed ms fuel hf h1 h2
  cases f with
  | sync =>
    have he : ∃ k, EndsWith true tail k := by
      rcases ht with rfl | ⟨k, hk, rfl⟩
      · exact ⟨_, .inl ⟨rfl, rfl⟩⟩
      · exact ⟨k, .inr (.inr ⟨[], rfl, by simp [hk]⟩)⟩
    obtain ⟨k, he⟩ := he
    obtain ⟨p, e, ho⟩ := g1 hz w src tail k hw he hs
    simp only [runTest, e, Option.map_some, ho]
  | async =>
    obtain ⟨p, e, ho⟩ := g2 (fun m hm => by have := hz m hm; omega) w src tail hw
      (ht.imp id fun ⟨k, _, h⟩ => ⟨k, h⟩) hs
    simp only [runTest, e, Option.map_some, ho]

/-- C81, `pingpong_with_closed_connection_sync` and `_async`, with any messages and any keys, each side with either API:
the client, having received no more than the handshake, has sent all of `toServer`; a server that receives `toServer`
passes and has sent `toClient`; and a client that receives `toClient` before the connection ends passes.  (So neither
waits for ever for the other.)  A client that receives anything more before the end fails. -/
theorem C81_pingpong (hP : Lawful P) {magic : Bytes} {I R : Peer} (H : Honest P prof magic I R)
    (hI : I.first + 2 < 2 ^ 32) (hR : R.first + 2 < 2 ^ 32) {ping pong : Bytes} (hz : ping.length ≤ 4000013)
    (hz' : pong.length ≤ 4000013) {reply : Bytes → Option Bytes} (hr : reply ping = some pong) {isPong : Bytes → Bool}
    (hp : isPong pong = true) (fC fS : Flavour) (wC wS : Sink) (hwC : wC.Reliable fC.retry) (hwS : wS.Reliable fS.retry) :
    ∃ toServer toClient kL kP : Bytes,
      (∀ src tail, Ended tail → Streams false src (flight P magic I R .responder) tail →
        runTest fC P prof magic I R .initiator src wC (pingClient ping isPong) true 3 = some (wC.out ++ toServer, false)) ∧
      (∀ src tail, Ended tail → Streams false src toServer tail →
        runTest fS P prof magic I R .responder src wS (pongServer reply) false 3 = some (wS.out ++ toClient, true)) ∧
      (∀ src tail, Ended tail → Streams false src toClient tail →
        runTest fC P prof magic I R .initiator src wC (pingClient ping isPong) true 3 = some (wC.out ++ toServer, true)) ∧
      toClient = flight P magic I R .responder ++ Spec.packet P kL kP R.first false [] pong ∧
      ∀ (t : PacketType) (c : Bytes), c.length ≤ 4000013 → ∀ src tail, Ended tail →
        Streams false src (toClient ++ Spec.packet P kL kP (R.first + 1) (t == .decoy) [] c) tail →
        runTest fC P prof magic I R .initiator src wC (pingClient ping isPong) true 3
          = some (wC.out ++ toServer, false) := by
  obtain ⟨kL, kP, h⟩ := runTest_eq hP H
  refine ⟨flight P magic I R .initiator ++ packetsFrom P (kL .initiator) (kP .initiator) I.first [(.genuine, ping)],
    flight P magic I R .responder ++ packetsFrom P (kL .responder) (kP .responder) R.first [(.genuine, pong)],
    kL .responder, kP .responder, ?_, ?_, ?_, by simp only [packetsFrom, List.append_nil]; rfl, ?_⟩
  · intro src tail ht hs
    exact h fC .initiator (pingClient ping isPong) true [] 3 (by simp) (by simp [Role.of, Role.peer]; omega)
      (by simpa [Role.of, pingClient] using hI) (by simp) wC src tail hwC ht (by simpa [packetsFrom, Role.peer] using hs)
  · intro src tail ht hs
    have := h fS .responder (pongServer reply) false [(.genuine, ping)] 3 (by simp)
      (by simp [Role.of, Role.peer]; omega) (by simp [Role.of, pongServer]; omega) (by simpa using hz) wS src tail hwS ht hs
    simpa [pongServer, converse, passes, hr, asGenuine, Role.of] using this
  · intro src tail ht hs
    have := h fC .initiator (pingClient ping isPong) true [(.genuine, pong)] 3 (by simp)
      (by simp [Role.of, Role.peer]; omega) (by simpa [Role.of, pingClient] using hI) (by simpa using hz') wC src tail hwC ht hs
    simpa [pingClient, converse, passes, hp, asGenuine, Role.of] using this
  · intro t c hc src tail ht hs
    have := h fC .initiator (pingClient ping isPong) true [(.genuine, pong), (t, c)] 3 (by simp)
      (by simpa [Role.of, Role.peer] using hR) (by simpa [Role.of, pingClient] using hI) (by simp [hz', hc]) wC src tail hwC ht
      (by simpa [packetsFrom, Role.peer, Role.of] using hs)
    simpa [pingClient, converse, passes, hp, asGenuine, Role.of] using this

/-- C81, `regtest_handshake_std` and `_async`: they pass exactly if the first packet after the handshake is a version
message, and whether that is a decoy (which BIP-324 wants to be ignored) makes no difference. -/
theorem C81_regtest (version : Bytes) (cmd : Bytes → Option String) (cs : List Bytes) :
    passes (regtestSteps version cmd) false cs = true ↔ ∃ c rest, cs = c :: rest ∧ cmd c = some "version" := by
  cases cs with
  | nil => simp [passes, regtestSteps, converse]
  | cons c cs =>
    by_cases h : cmd c = some "version" <;> simp [passes, regtestSteps, converse, h]

theorem dropUntil_iff (done : Bytes → Option Bool) (cs r : List Bytes) : dropUntil done cs = some r ↔
    ∃ skipped c, cs = skipped ++ c :: r ∧ (∀ x ∈ skipped, done x = some false) ∧ done c = some true := by
  induction cs with
  | nil => simp [dropUntil]
  | cons c cs ih =>
    simp only [dropUntil]
    cases hd : done c with
    | none =>
      simp only [reduceCtorEq, false_iff, not_exists]
      rintro skipped x ⟨h1, h2, h3⟩
      cases skipped with
      | nil =>
        simp only [List.nil_append, List.cons.injEq] at h1
        rw [h1.1, h3] at hd; cases hd
      | cons y ys =>
        simp only [List.cons_append, List.cons.injEq] at h1
        have := h2 y List.mem_cons_self
        rw [← h1.1, hd] at this; cases this
    | some b =>
      cases b with
      | true =>
        simp only [Option.some.injEq]
        constructor
        · rintro rfl
          exact ⟨[], c, rfl, by simp, hd⟩
        · rintro ⟨skipped, x, h1, h2, -⟩
          cases skipped with
          | nil =>
            simp only [List.nil_append, List.cons.injEq] at h1
            exact h1.2
          | cons y ys =>
            simp only [List.cons_append, List.cons.injEq] at h1
            have := h2 y List.mem_cons_self
            rw [← h1.1, hd] at this; cases this
      | false =>
        simp only [ih]
        constructor
        · rintro ⟨skipped, x, rfl, h2, h3⟩
          refine ⟨c :: skipped, x, rfl, ?_, h3⟩
          intro y hy
          rcases List.mem_cons.1 hy with rfl | hy
          · exact hd
          · exact h2 y hy
        · rintro ⟨skipped, x, h1, h2, h3⟩
          cases skipped with
          | nil =>
            simp only [List.nil_append, List.cons.injEq] at h1
            rw [h1.1, h3] at hd; cases hd
          | cons y ys =>
            simp only [List.cons_append, List.cons.injEq] at h1
            exact ⟨ys, x, h1.2, fun z hz => h2 z (List.mem_cons_of_mem _ hz), h3⟩

/-- Messages of other kinds, and then a pong. -/
def ThenPong (cmd : Bytes → Option String) (cs rest : List Bytes) : Prop :=
  ∃ others pong, cs = others ++ pong :: rest ∧ (∀ c ∈ others, ∃ k, cmd c = some k ∧ k ≠ "pong") ∧ cmd pong = some "pong"

theorem untilPong_iff (cmd : Bytes → Option String) (cs r : List Bytes) :
    dropUntil (fun c => (cmd c).map fun k => decide (k = "pong")) cs = some r ↔ ThenPong cmd cs r := by
  rw [dropUntil_iff]
  have h1 : ∀ x, ((cmd x).map fun k => decide (k = "pong")) = some false ↔ ∃ k, cmd x = some k ∧ k ≠ "pong" := by
    intro x; cases cmd x <;> simp
  have h2 : ∀ x, ((cmd x).map fun k => decide (k = "pong")) = some true ↔ cmd x = some "pong" := by
    intro x; cases cmd x <;> simp
  simp only [h1, h2, ThenPong]

/-- C81, `sync_protocol_with_traffic_shaping` and `async_protocol_with_traffic_shaping`: the packets received are accepted
exactly if the first is a version message, the second a verack, and after them there are three pongs, with messages of
other kinds in between.  The nonces of the pings do not occur: any three pongs will do.  Every packet, decoys included,
has to be a message. -/
theorem C81_integration (version verack : Bytes) (ping : Nat → Bytes) (cmd : Bytes → Option String) (cs : List Bytes) :
    passes (integrationSteps version verack ping cmd) false cs = true ↔
      ∃ v a r r1 r2 r3, cs = v :: a :: r ∧ cmd v = some "version" ∧ cmd a = some "verack" ∧
        ThenPong cmd r r1 ∧ ThenPong cmd r1 r2 ∧ ThenPong cmd r2 r3 := by
  have key : ∀ r, (∃ r1 r2 r3, ThenPong cmd r r1 ∧ ThenPong cmd r1 r2 ∧ ThenPong cmd r2 r3) ↔
      ∃ x, (converse [.write (ping 0), .until fun c => (cmd c).map (· = "pong"),
        .write (ping 1), .until fun c => (cmd c).map (· = "pong"),
        .write (ping 2), .until fun c => (cmd c).map (· = "pong")] r).2 = some x := by
    intro r
    simp only [← untilPong_iff, converse]
    constructor
    · rintro ⟨r1, r2, r3, h1, h2, h3⟩
      simp only [h1, h2, h3]
      exact ⟨r3, rfl⟩
    · rintro ⟨x, hx⟩
      cases h1 : dropUntil (fun c => (cmd c).map fun k => decide (k = "pong")) r with
      | none => rw [h1] at hx; cases hx
      | some r1 =>
        rw [h1] at hx
        simp only at hx
        cases h2 : dropUntil (fun c => (cmd c).map fun k => decide (k = "pong")) r1 with
        | none => rw [h2] at hx; cases hx
        | some r2 =>
          rw [h2] at hx
          simp only at hx
          cases h3 : dropUntil (fun c => (cmd c).map fun k => decide (k = "pong")) r2 with
          | none => rw [h3] at hx; cases hx
          | some r3 => exact ⟨r1, r2, r3, rfl, h2, h3⟩
  match cs with
  | [] => simp [passes, integrationSteps, converse]
  | [v] => by_cases h : cmd v = some "version" <;> simp [passes, integrationSteps, converse, h]
  | v :: a :: r =>
    have h0 : (∃ v' a' r' r1 r2 r3, v :: a :: r = v' :: a' :: r' ∧ cmd v' = some "version" ∧ cmd a' = some "verack" ∧
        ThenPong cmd r' r1 ∧ ThenPong cmd r1 r2 ∧ ThenPong cmd r2 r3) ↔ (cmd v = some "version" ∧ cmd a = some "verack" ∧
        ∃ r1 r2 r3, ThenPong cmd r r1 ∧ ThenPong cmd r1 r2 ∧ ThenPong cmd r2 r3) := by
      constructor
      · rintro ⟨v', a', r', r1, r2, r3, h, h1, h2, h3⟩
        simp only [List.cons.injEq] at h
        obtain ⟨rfl, rfl, rfl⟩ := h
        exact ⟨h1, h2, r1, r2, r3, h3⟩
      · rintro ⟨h1, h2, r1, r2, r3, h3⟩
        exact ⟨v, a, r, r1, r2, r3, rfl, h1, h2, h3⟩
    rw [h0, key]
    by_cases hv : cmd v = some "version"
    · by_cases ha : cmd a = some "verack"
      · simp only [hv, ha, true_and]
        have e : (converse (integrationSteps version verack ping cmd) (v :: a :: r)).2 =
            (converse [.write (ping 0), .until fun c => (cmd c).map (· = "pong"),
              .write (ping 1), .until fun c => (cmd c).map (· = "pong"),
              .write (ping 2), .until fun c => (cmd c).map (· = "pong")] r).2 := by
          simp only [integrationSteps, converse, hv, ha, decide_true, if_true]
        unfold passes
        rw [e]
        cases (converse [.write (ping 0), .until fun c => (cmd c).map (· = "pong"),
          .write (ping 1), .until fun c => (cmd c).map (· = "pong"),
          .write (ping 2), .until fun c => (cmd c).map (· = "pong")] r).2 <;> simp
      · simp [passes, integrationSteps, converse, hv, ha]
    · simp [passes, integrationSteps, converse, hv]

/-- The contents of the payloads read. -/
def contentsOf (vs : List (Option (PacketType × Bytes))) : List Bytes := vs.filterMap fun v => v.map (·.2)

/-- C81, the same tests with the shaped protocols: whatever end the peer has, in every schedule of the test's writes, the
decoys and the reads, the verdict over what is read is that over what the peer sent. -/
theorem C81_shaped (hP : Lawful P) {magic : Bytes} {I R' : Peer} (H : Honest P prof magic I R') (role : Role)
    {w : Sink} (hw : w.Reliable true) {src tail : Source} {k : ErrorKind} {more : Bytes} (he : EndsWith true tail k)
    (hs : Streams false src (flight P magic I R' role.peer ++ more) tail) (steps : List TestStep) (closed : Bool) :
    ∃ p, SyncProtocol.new P prof magic role (role.of I R').rng (role.of I R').garbage (role.of I R').decoys src w = .ok p ∧
      ∀ ps w' rs, p.writer.writeMany .sync P prof ps = (w', rs) → (∀ x ∈ rs, x = .ok ()) →
        (∀ q ∈ ps, ∀ c, q.contents = some c → c.length ≤ 4000013) → ∀ all, w'.writer.out = w.out ++ all →
        ∀ (G : Rng) (config : TrafficConfig) (gen : G.State) (sh : Shaper G) (rec : List Nat) (w2 : Sink) (src2 : Source),
          Shaper.handshake (R := G) ⟨config, gen⟩ = (sh, (role.peer.of I R').garbage, (role.peer.of I R').decoys, rec) →
          (w2.Reliable true → ∀ tail2 k2, EndsWith true tail2 k2 → Streams false src2 all tail2 →
            ∃ s, ShapedSys.new (R := G) P prof magic role.peer (role.peer.of I R').rng config gen src2 w2 = .ok s ∧
              ∀ ls, ls.count .read = ps.length →
                passes steps closed (contentsOf ((s.run P prof ls).reads.map seen))
                  = passes steps closed (contentsOf (ps.map Payload.view))) ∧
          (w2.Reliable false → Streams false src2 all [] →
            ∃ s, AsyncShapedSys.new (R := G) P prof magic role.peer (role.peer.of I R').rng config gen src2 w2 = .ok s ∧
              ∀ ls, s.reader.reader.reader.size + ps.length ≤ ls.count .read →
                passes steps closed (contentsOf ((payloads (completed (s.run P prof ls).reads)).map Payload.view))
                  = passes steps closed (contentsOf (ps.map Payload.view))) := by
  obtain ⟨p, hp, h⟩ := C59_sync hP H role hw he hs
  refine ⟨p, hp, ?_⟩
  intro ps w' rs h1 h2 h3 all h4 G config gen sh rec w2 src2 hsh
  have hc := h ps w' rs h1 h2 h3 all h4
  constructor
  · intro hw2 tail2 k2 he2 hs2
    obtain ⟨s, e, g⟩ := hc.threads G config gen sh rec w2 src2 tail2 k2 hsh hw2 he2 hs2
    exact ⟨s, e, fun ls hls => by rw [g ls hls]⟩
  · intro hw2 hs2
    obtain ⟨s, e, g⟩ := hc.task G config gen sh rec w2 src2 hsh hw2 hs2
    exact ⟨s, e, fun ls hls => by rw [(g ls).2 hls]⟩

/-! ## Two asynchronous handshakes over a channel -/

/-- Two asynchronous handshakes. protocol/src/futures.rs:505-543, 545-583. -/
def asyncSetup (magic rngI rngR : Bytes) (gI gR : Option Bytes) (dI dR : Option (List Bytes)) : Setup :=
  ⟨asyncApi, asyncApi, magic, rngI, rngR, gI, gR, dI, dR⟩

/-- Every maximal run of the two handshakes ends with both of them done. -/
def AlwaysDone (P : Prims) (prof : Profile) (S : Setup) (cap : Nat) : Prop :=
  ∀ k n, BNet.Steps P prof S cap cap k BNet.init n → (∀ n', ¬ BNet.Step P prof S cap cap n n') → n.Done P prof S

/-- C81, `test_async_handshake_functions`: two handshakes with any keys, garbage and decoys, over a channel of any capacity,
always finish exactly if what they send fits; what the test sends (144 and 182 bytes) does in its 1024
bytes, and the least capacity with which it does is 80. -/
theorem C81_async_functions (hP : Lawful P) {magic rngI rngR : Bytes} {gI gR : Option Bytes} {dI dR : Option (List Bytes)}
    (H : HonestPair P prof magic rngI rngR gI gR dI dR) {cap : Nat} (hc : 0 < cap) :
    (AlwaysDone P prof (asyncSetup magic rngI rngR gI gR dI dR) cap ↔
      (asyncSetup magic rngI rngR gI gR dI dR).Fits cap cap) ∧
    ((gI.getD []).length = 13 → (gR.getD []).length = 14 → (dI.getD []).map List.length = [11] →
      (dR.getD []).map List.length = [14, 14] →
      (AlwaysDone P prof (asyncSetup magic rngI rngR gI gR dI dR) cap ↔ 80 ≤ cap)) := by
  have hA : ((asyncSetup magic rngI rngR gI gR dI dR).apiI = syncApi ∨ (asyncSetup magic rngI rngR gI gR dI dR).apiI = asyncApi) ∧
      ((asyncSetup magic rngI rngR gI gR dI dR).apiR = syncApi ∨ (asyncSetup magic rngI rngR gI gR dI dR).apiR = asyncApi) :=
    ⟨.inr rfl, .inr rfl⟩
  obtain ⟨-, h2, h3⟩ := C56_iff (S := asyncSetup magic rngI rngR gI gR dI dR) hA hP H hc hc
  have iff : AlwaysDone P prof (asyncSetup magic rngI rngR gI gR dI dR) cap ↔
      (asyncSetup magic rngI rngR gI gR dI dR).Fits cap cap := by
    refine ⟨fun h => ?_, h2⟩
    by_cases hf : (asyncSetup magic rngI rngR gI gR dI dR).Fits cap cap
    · exact hf
    · obtain ⟨k, n, h4, h5, h6⟩ := h3 hf
      exact absurd (h k n h4 h5) h6
  refine ⟨iff, ?_⟩
  · intro g1 g2 d1 d2
    rw [iff]
    have e1 : ((dI.getD []).map fun d => d.length + 20) = [31] := by
      rw [show (fun d : Bytes => d.length + 20) = (fun l => l + 20) ∘ List.length from rfl, ← List.map_map, d1]; rfl
    have e2 : ((dR.getD []).map fun d => d.length + 20) = [34, 34] := by
      rw [show (fun d : Bytes => d.length + 20) = (fun l => l + 20) ∘ List.length from rfl, ← List.map_map, d2]; rfl
    simp only [Setup.Fits, GetsOut, asyncSetup, allFlights, firstFlight, e1, e2, g1, g2, List.sum_cons, List.sum_nil]
    omega

/-- C81, `test_async_handshake_packet_too_big_protection`: over every network, for all keys and all decoys of less than 2^24
bytes, the initiator's handshake fails as the test wants it to, exactly if the decoy has more than 3999997 bytes. -/
theorem C81_async_too_big (hP : Lawful P) {magic rngI rngR : Bytes} (H : PairKeys P prof magic rngI rngR) {decoy : Bytes}
    (hd : decoy.length < 2 ^ 24) {w : Sink} (hw : w.Reliable false) {src tail : Source} {k : ErrorKind} {more : Bytes}
    (he : EndsWith false tail k)
    (hs : Streams false src (wireR P magic rngI rngR none (some [decoy]) ++ more) tail) :
    (handshake asyncApi P prof magic .initiator rngI none none src w).2.2 = .err (.internal .packetTooBig) ↔
      3999997 < decoy.length := by
  have hp : ∀ dR : List Bytes, (∀ d ∈ dR, d.length ≤ 3999997) → dR.length ≤ 1 →
      HonestPair P prof magic rngI rngR none none none (some dR) := fun dR h1 h2 =>
    { newI := H.usableA, newR := H.usableB, magicI := H.notV1A, magicR := H.notV1B, garbageI := by simp,
      garbageR := by simp, decoysI := by simp, decoysR := h1, countI := by simp,
      countR := by simp only [Option.getD_some]; omega
      earlyI := by intro i hi; simp at hi, earlyR := by intro i hi; simp at hi }
  constructor
  · intro h
    by_contra hb
    obtain ⟨iI, -, oI, -, -, -, f, -⟩ := honest_sessions hP
      (hp [decoy] (by intro d h; rw [List.mem_singleton] at h; subst h; omega) (by simp))
    obtain ⟨w', log, s, hh, -⟩ := f asyncApi asyncAbs w src tail k more hw he hs
    rw [hh] at h
    cases h
  · intro hb
    exact C27_too_big_initiator hP (hp [] (by simp) (by simp)) decoy [] hb hd (by simp) (.inr rfl) w hw src tail k more he hs

/-- C81, `test_async_protocol_drop`: with any pair of usable keys that do not look like V1, whatever the random generator
gives, the handshakes of the shaped initiator and of the plain responder always finish, exactly if the channel holds a
key: 64 bytes, where the test has 400000. -/
theorem C81_async_drop {R : Rng} (hP : Lawful P) {magic rngI rngR : Bytes} (H : PairKeys P prof magic rngI rngR)
    {config : TrafficConfig} {gen : R.State} {sh : Shaper R} {rec : List Nat} {gI : Option Bytes} {dI : Option (List Bytes)}
    (hpad : config.padding = .disabled) (hsh : Shaper.handshake (R := R) ⟨config, gen⟩ = (sh, gI, dI, rec)) {cap : Nat}
    (hc : 0 < cap) : AlwaysDone P prof (asyncSetup magic rngI rngR gI none dI none) cap ↔ 64 ≤ cap := by
  obtain ⟨h1, h2, h3, h4, -⟩ := C37_handshake hsh
  have hg := h4.1 hpad
  subst hg
  have Hp : HonestPair P prof magic rngI rngR none none dI none :=
    { newI := H.usableA, newR := H.usableB, magicI := H.notV1A, magicR := H.notV1B, garbageI := by simp,
      garbageR := by simp, decoysI := fun d hd => by have := (h3 d hd).2; omega, decoysR := by simp,
      countI := by omega, countR := by simp
      earlyI := by intro i hi; simp at hi, earlyR := by intro i hi; simp at hi }
  rw [(C81_async_functions hP Hp hc).1]
  simp only [Setup.Fits, GetsOut, asyncSetup, allFlights, firstFlight, Option.getD_none, List.length_nil, List.map_nil,
    List.sum_nil]
  omega

/-! ## Cases -/

/-- The parties of the examples: an initiator with garbage and two decoys, and a plain responder. -/
def pairI : Peer := ⟨leBytes 32 77, some [42, 42], some [[1, 2, 3], []]⟩
def pairR : Peer := ⟨leBytes 32 99, none, none⟩

/-- The server answers a message with its reversal. -/
def reverseReply (c : Bytes) : Option Bytes := if c.isEmpty then none else some c.reverse

/-- Beside C81: a blocking client and an asynchronous server, run against each other by hand.  The client has sent its ping
when the handshake is over; the server answers; the client gets the pong in two pieces, and then the end. -/
example : Honest toy .debug [1, 2, 3, 4] pairI pairR ∧
    let toServer := runTest .sync toy .debug [1, 2, 3, 4] pairI pairR .initiator
      [.data (flight toy [1, 2, 3, 4] pairI pairR .responder)] ⟨[], [], []⟩ (pingClient [1, 2, 3] (· == [3, 2, 1])) true 3
    let sent := (toServer.map (·.1)).getD []
    let toClient := runTest .async toy .debug [1, 2, 3, 4] pairI pairR .responder
      [.pending, .data (sent.take 100), .pending, .data (sent.drop 100)] ⟨[.accept 3], [], []⟩ (pongServer reverseReply) false 3
    let answer := (toClient.map (·.1)).getD []
    toServer.map (·.2) = some false ∧ sent.length = 168 ∧ toClient.map (·.2) = some true ∧ answer.length = 123 ∧
      runTest .sync toy .debug [1, 2, 3, 4] pairI pairR .initiator [.data (answer.take 101), .data (answer.drop 101)]
        ⟨[], [], []⟩ (pingClient [1, 2, 3] (· == [3, 2, 1])) true 3 = some (sent, true) :=
  ⟨sample_pair, by decide +kernel⟩

/-- Beside C81: what is judged, and what is not. -/
example : let cmd : Bytes → Option String := fun c => match c with
      | [1] => some "version" | [2] => some "verack" | 3 :: _ => some "pong" | [] => none | _ => some "inv"
    passes (regtestSteps [1] cmd) false [[1]] = true ∧ passes (regtestSteps [1] cmd) false [[], [1]] = false ∧
    passes (integrationSteps [1] [2] (fun i => [3, i.toUInt8]) cmd) false [[1], [2], [9], [3, 0], [3, 0], [8], [3, 7]] = true ∧
    passes (integrationSteps [1] [2] (fun i => [3, i.toUInt8]) cmd) false [[1], [9], [2], [3, 0], [3, 1], [3, 2]] = false ∧
    passes (integrationSteps [1] [2] (fun i => [3, i.toUInt8]) cmd) false [[1], [2], [3, 0], [3, 1], [], [3, 2]] = false := by
  decide

/-- Beside `C81_async_functions`, with the sizes of the test. -/
example : (asyncSetup [1, 2, 3, 4] (leBytes 32 77) (leBytes 32 99) (some (zeros 13)) (some (zeros 14)) (some [zeros 11])
      (some [zeros 14, zeros 14])).Fits 1024 1024 ∧
    allFlights (some (zeros 13)) (some [zeros 11]) = 144 ∧ allFlights (some (zeros 14)) (some [zeros 14, zeros 14]) = 182 := by
  simp [Setup.Fits, GetsOut, asyncSetup, allFlights, firstFlight, zeros]

/-- Beside `C81_async_too_big` and `C81_async_drop`: usable keys, and a configuration as in the test. -/
example : PairKeys toy .debug [1, 2, 3, 4] (leBytes 32 77) (leBytes 32 99) ∧
    (TrafficConfig.default.withDecoy .random).padding = .disabled :=
  ⟨⟨by decide +kernel, by decide +kernel, by decide +kernel, by decide +kernel⟩, rfl⟩

end Bip324
