import Verif.Props.ReadCalls
import Verif.Props.NoPanic

/-!
# How often the transport is read, exactly: C82

When all bytes have arrived, the number of calls can be computed from the sizes of the payloads.
-/

namespace Bip324

variable {P : Prims} {prof : Profile} {σ : Type} {fuel : Nat}

/-! ## Specification -/

/-- What is read exactly for a payload: the length, then header, contents and tag. -/
def Payload.requests (p : Payload) : List Nat := [3, (p.contents.getD []).length + 17]

/-- The calls that a `BufReader` of `cap` bytes makes for these requests, with `b` bytes in its buffer and `left` bytes
arrived: none if the buffer suffices, otherwise one.  Without `BufReader`: `cap = 0`. -/
def bufCost (cap : Nat) : Nat → Nat → List Nat → Nat
  | _, _, [] => 0
  | b, left, n :: ns =>
    if n ≤ b then bufCost cap (b - n) left ns
    else if cap ≤ n - b then 1 + bufCost cap 0 (left - (n - b)) ns
    else 1 + bufCost cap (min cap left - (n - b)) (left - cap) ns

/-- Reads that succeed, and writes. -/
def Answer.fine : Answer → Bool
  | .read (.ok _) => true
  | .wrote _ => true
  | _ => false

/-- All bytes have arrived, and then the stream ends. -/
def Arrived (s : Source) : Prop := s = [] ∨ ∃ bs, s = [.data bs]

/-! ## A reader of bytes that have arrived -/

/-- What can be seen of a reader: the calls that it made, its buffer, and what has arrived behind it. -/
abbrev View := Nat × Bytes × Bytes

/-- One `read`. -/
def View.read (cap : Nat) (v : View) (n : Nat) : View × Bytes :=
  if v.2.1 = [] then
    if cap ≤ n then ((v.1 + 1, [], v.2.2.drop n), v.2.2.take n)
    else ((v.1 + 1, (v.2.2.take cap).drop n, v.2.2.drop cap), (v.2.2.take cap).take n)
  else ((v.1, v.2.1.drop n, v.2.2), v.2.1.take n)

/-- One `read_exact` that succeeds. -/
def View.exact (cap : Nat) (v : View) (n : Nat) : View :=
  if n ≤ v.2.1.length then (v.1, v.2.1.drop n, v.2.2)
  else if cap ≤ n - v.2.1.length then (v.1 + 1, [], v.2.2.drop (n - v.2.1.length))
  else (v.1 + 1, (v.2.2.take cap).drop (n - v.2.1.length), v.2.2.drop cap)

/-- The reader `rd` shows the view `V`. -/
def ReadView {X : Type} (rd : X → Nat → Option (X × ReadRes)) (cap : Nat) (V : X → View → Prop) : Prop :=
  ∀ s v n s' x, 0 < n → V s v → rd s n = some (s', x) → V s' (v.read cap n).1 ∧ x = .ok (v.read cap n).2

theorem readExactN_view {X : Type} {rd : X → Nat → Option (X × ReadRes)} {cap : Nat} {V : X → View → Prop}
    (h : ReadView rd cap V) {retry : Bool} {s s' : X} {v : View} {need : Nat} {acc out : Bytes} (hn : 0 < need) (hv : V s v)
    (he : readExactN fuel rd retry s need acc = some (s', .ok out)) : V s' (v.exact cap need) ∧ out.length = acc.length + need := by
  -- from an empty buffer
  have empty : ∀ {fuel : Nat} {s s' : X} {k : Nat} {rest : Bytes} {need : Nat} {acc out : Bytes}, 0 < need →
      V s (k, [], rest) → readExactN fuel rd retry s need acc = some (s', .ok out) →
      V s' (View.exact cap (k, [], rest) need) ∧ out.length = acc.length + need := by
    intro fuel s s' k rest need acc out hn hv he
    cases fuel with
    | zero => simp [readExactN] at he
    | succ fuel =>
    unfold readExactN at he
    simp only [show need ≠ 0 by omega, if_false] at he
    cases hr : rd s need with
    | none => rw [hr] at he; simp at he
    | some z =>
    obtain ⟨s1, z⟩ := z
    obtain ⟨h1, rfl⟩ := h s _ need s1 z hn hv hr
    rw [hr] at he
    -- what is given is a front part of the request
    have done : ∀ {given : Bytes} {v1 : View}, V s1 v1 → given.length ≤ need → (given.length < need → v1.2 = ([], [])) →
        (match (some (s1, ReadRes.ok given) : Option (X × ReadRes)) with
          | none => none
          | some (s', .ok []) => some (s', .error .unexpectedEof)
          | some (s', .ok (b :: bs)) => readExactN fuel rd retry s' (need - (b :: bs).length) (acc ++ (b :: bs))
          | some (s', .err k) =>
            if retry && k == .interrupted then readExactN fuel rd retry s' need acc else some (s', .error k)) =
            some (s', .ok out) →
        s' = s1 ∧ given.length = need ∧ out = acc ++ given := by
      intro given v1 hv1 hl hshort he
      cases given with
      | nil => simp at he
      | cons b bs =>
      simp only at he
      cases fuel with
      | zero => simp [readExactN] at he
      | succ fuel =>
      unfold readExactN at he
      by_cases h0 : need - (b :: bs).length = 0
      · simp only [if_pos h0, Option.some.injEq, Prod.mk.injEq, Except.ok.injEq] at he
        exact ⟨he.1.symm, by omega, he.2.symm⟩
      · simp only [if_neg h0] at he
        have hv2 := hshort (by omega)
        cases hr2 : rd s1 (need - (b :: bs).length) with
        | none => rw [hr2] at he; simp at he
        | some z =>
        obtain ⟨s2, z⟩ := z
        obtain ⟨h2, rfl⟩ := h s1 _ _ s2 z (by omega) hv1 hr2
        rw [hr2] at he
        have : (v1.read cap (need - (b :: bs).length)).2 = [] := by
          unfold View.read
          rw [hv2]
          simp
        rw [this] at he
        simp at he
    by_cases hc : cap ≤ need
    · have hview : View.read cap (k, [], rest) need = ((k + 1, [], rest.drop need), rest.take need) := by simp [View.read, hc]
      rw [hview] at h1 he
      obtain ⟨rfl, hl, rfl⟩ := done h1 (by simp) (fun hs => by
        simp only [List.length_take] at hs
        simp only [Prod.mk.injEq, true_and]
        exact List.drop_eq_nil_iff.2 (by omega)) he
      simp only at hl
      refine ⟨?_, by simp only [List.length_append]; omega⟩
      simpa [View.exact, hc, show ¬ need ≤ 0 by omega] using h1
    · have hview : View.read cap (k, [], rest) need =
          ((k + 1, (rest.take cap).drop need, rest.drop cap), (rest.take cap).take need) := by simp [View.read, hc]
      rw [hview] at h1 he
      obtain ⟨rfl, hl, rfl⟩ := done h1 (by simp) (fun hs => by
        simp only [List.length_take] at hs
        simp only [Prod.mk.injEq]
        exact ⟨List.drop_eq_nil_iff.2 (by simp only [List.length_take]; omega), List.drop_eq_nil_iff.2 (by omega)⟩) he
      simp only at hl
      refine ⟨?_, by simp only [List.length_append]; omega⟩
      simpa [View.exact, hc, show ¬ need ≤ 0 by omega] using h1
  obtain ⟨k, buf, rest⟩ := v
  by_cases hb : buf = []
  · subst hb
    exact empty hn hv he
  · cases fuel with
    | zero => simp [readExactN] at he
    | succ fuel =>
    unfold readExactN at he
    simp only [show need ≠ 0 by omega, if_false] at he
    cases hr : rd s need with
    | none => rw [hr] at he; simp at he
    | some z =>
    obtain ⟨s1, z⟩ := z
    obtain ⟨h1, rfl⟩ := h s _ need s1 z hn hv hr
    rw [hr] at he
    have hview : View.read cap (k, buf, rest) need = ((k, buf.drop need, rest), buf.take need) := by simp [View.read, hb]
    rw [hview] at h1 he
    simp only at h1 he
    cases hg : buf.take need with
    | nil => exact absurd hg (take_ne_nil hb hn)
    | cons b bs =>
    have hlen : (b :: bs).length = min need buf.length := by rw [← hg]; simp
    rw [hg] at he
    simp only at he
    by_cases hfull : need ≤ buf.length
    · cases fuel with
      | zero => simp [readExactN] at he
      | succ fuel =>
      unfold readExactN at he
      have h0 : need - (b :: bs).length = 0 := by omega
      simp only [if_pos h0, Option.some.injEq, Prod.mk.injEq, Except.ok.injEq] at he
      obtain ⟨rfl, rfl⟩ := he
      refine ⟨?_, by rw [List.length_append]; omega⟩
      simpa [View.exact, hfull] using h1
    · have hd : buf.drop need = [] := List.drop_eq_nil_iff.2 (by omega)
      rw [hd] at h1
      have hm : need - (b :: bs).length = need - buf.length := by omega
      rw [hm] at he
      obtain ⟨h2, h3⟩ := empty (by omega) h1 he
      refine ⟨?_, by rw [h3, List.length_append]; omega⟩
      simpa [View.exact, hfull, show ¬ need - buf.length ≤ 0 by omega] using h2


/-- The calls are those of the specification. -/
theorem view_cost (cap : Nat) (ns : List Nat) : ∀ v : View,
    (ns.foldl (View.exact cap) v).1 = v.1 + bufCost cap v.2.1.length v.2.2.length ns := by
  induction ns with
  | nil => intro v; rfl
  | cons n ns ih =>
    rintro ⟨k, buf, rest⟩
    simp only [List.foldl_cons, ih, bufCost]
    simp only [View.exact]
    by_cases h1 : n ≤ buf.length
    · simp only [if_pos h1, List.length_drop]
    · by_cases h2 : cap ≤ n - buf.length
      · simp only [if_neg h1, if_pos h2, List.length_drop, List.length_nil]; omega
      · simp only [if_neg h1, if_neg h2, List.length_drop, List.length_take]; omega

/-! ## The transports -/

theorem arrived_read {s : Source} (h : Arrived s) (n : Nat) :
    Arrived (s.read n).1 ∧ (s.read n).2 = .ok (s.bytes.take n) ∧ (s.read n).1.bytes = s.bytes.drop n ∧
      s.pollRead n = ((s.read n).1, .ready (s.read n).2) := by
  rcases h with rfl | ⟨bs, rfl⟩
  · exact ⟨.inl rfl, by simp [Source.read, Source.bytes], by simp [Source.read, Source.bytes], rfl⟩
  · by_cases hl : bs.length ≤ n
    · simp only [Source.read, Source.pollRead, if_pos hl]
      exact ⟨.inl rfl, by simp [Source.bytes, List.take_of_length_le hl], by
        simp [Source.bytes, List.drop_eq_nil_iff.2 hl], trivial⟩
    · simp only [Source.read, Source.pollRead, if_neg hl]
      exact ⟨.inr ⟨_, rfl⟩, by simp [Source.bytes], by simp [Source.bytes], trivial⟩

/-- What is seen of a transport. -/
def plainView (r : ConnRun (Source × Sink)) (v : View) : Prop :=
  Arrived r.net.1 ∧ v = (r.answers.length, [], r.net.1.bytes)

/-- What is seen of a transport behind a `BufReader`. -/
def bufView (r : ConnRun (BufState (ConnRun (Source × Sink)))) (v : View) : Prop :=
  Arrived r.net.inner.net.1 ∧ v = (r.net.inner.answers.length, r.net.buf, r.net.inner.net.1.bytes)

/-- `poll_read` as a `read` that does not return. -/
def PollConn.pollAs (N : PollConn σ) (r : ConnRun σ) (n : Nat) : Option (ConnRun σ × ReadRes) :=
  match N.pollRun r n with
  | (r', .ready x) => some (r', x)
  | (_, .pending) => none

theorem plain_run {r r' : ConnRun (Source × Sink)} {n : Nat} {x : ReadRes} (h : Arrived r.net.1)
    (he : scriptConn.readRun r n = some (r', x) ∨ scriptConn.pollRun r n = (r', .ready x)) :
    Arrived r'.net.1 ∧ x = .ok (r.net.1.bytes.take n) ∧ r'.net.1.bytes = r.net.1.bytes.drop n ∧
      r'.answers.length = r.answers.length + 1 ∧ r'.net.2 = r.net.2 := by
  obtain ⟨h1, h2, h3, h4⟩ := arrived_read h n
  rcases he with he | he
  · simp only [Conn.readRun, scriptConn, h2, Option.some.injEq, Prod.mk.injEq] at he
    obtain ⟨rfl, rfl⟩ := he
    exact ⟨h1, rfl, h3, by simp, rfl⟩
  · simp only [PollConn.pollRun, scriptConn, h4, h2, Prod.mk.injEq, PollRead.ready.injEq] at he
    obtain ⟨rfl, rfl⟩ := he
    exact ⟨h1, rfl, h3, by simp, rfl⟩

theorem plain_pending {r r' : ConnRun (Source × Sink)} {n : Nat} (h : Arrived r.net.1)
    (he : scriptConn.pollRun r n = (r', .pending)) : False := by
  obtain ⟨h1, h2, h3, h4⟩ := arrived_read h n
  simp [PollConn.pollRun, scriptConn, h4, h2] at he

theorem plain_sync_view : ReadView scriptConn.readRun 0 plainView := by
  rintro r v n r' x hn ⟨ha, rfl⟩ he
  obtain ⟨h1, rfl, h3, h4, -⟩ := plain_run ha (.inl he)
  exact ⟨⟨h1, by simp [View.read, h3, h4]⟩, by simp [View.read]⟩

theorem plain_poll_view : ReadView scriptConn.pollAs 0 plainView := by
  rintro r v n r' x hn ⟨ha, rfl⟩ he
  unfold PollConn.pollAs at he
  split at he
  · rename_i r1 y hp
    simp only [Option.some.injEq, Prod.mk.injEq] at he
    obtain ⟨rfl, rfl⟩ := he
    obtain ⟨h1, rfl, h3, h4, -⟩ := plain_run ha (.inr hp)
    exact ⟨⟨h1, by simp [View.read, h3, h4]⟩, by simp [View.read]⟩
  · simp at he

theorem buf_sync_view (cap : Nat) : ReadView (bufConn cap scriptConn.toConn.logged).readRun cap bufView := by
  rintro ⟨⟨i, buf⟩, ans, sent⟩ v n r' x hn ⟨ha, rfl⟩ he
  simp only at ha
  simp only [Conn.readRun, bufConn, bufRead, Conn.logged] at he
  by_cases hb : buf = []
  · subst hb
    simp only [if_pos] at he
    by_cases hc : cap ≤ n
    · simp only [if_pos hc] at he
      cases hr : scriptConn.readRun i n with
      | none => exact absurd he (by unfold Conn.readRun at hr; rw [hr]; simp)
      | some z =>
      obtain ⟨i', z⟩ := z
      obtain ⟨h1, rfl, h3, h4, -⟩ := plain_run ha (.inl hr)
      unfold Conn.readRun at hr
      rw [hr] at he
      simp only [Option.some.injEq, Prod.mk.injEq] at he
      obtain ⟨rfl, rfl⟩ := he
      exact ⟨⟨h1, by simp [View.read, hc, h3, h4]⟩, by simp [View.read, hc]⟩
    · simp only [if_neg hc] at he
      cases hr : scriptConn.readRun i cap with
      | none => exact absurd he (by unfold Conn.readRun at hr; rw [hr]; simp)
      | some z =>
      obtain ⟨i', z⟩ := z
      obtain ⟨h1, rfl, h3, h4, -⟩ := plain_run ha (.inl hr)
      unfold Conn.readRun at hr
      rw [hr] at he
      simp only [Option.some.injEq, Prod.mk.injEq] at he
      obtain ⟨rfl, rfl⟩ := he
      exact ⟨⟨h1, by simp [View.read, hc, h3, h4]⟩, by simp [View.read, hc]⟩
  · simp only [if_neg hb, Option.some.injEq, Prod.mk.injEq] at he
    obtain ⟨rfl, rfl⟩ := he
    exact ⟨⟨ha, by simp [View.read, hb]⟩, by simp [View.read, hb]⟩

theorem buf_poll_view (cap : Nat) : ReadView (bufPoll cap scriptConn.logged).pollAs cap bufView := by
  rintro ⟨⟨i, buf⟩, ans, sent⟩ v n r' x hn ⟨ha, rfl⟩ he
  simp only at ha
  simp only [PollConn.pollAs, PollConn.pollRun, bufPoll, bufPollRead, PollConn.logged] at he
  by_cases hb : buf = []
  · subst hb
    simp only [if_pos] at he
    by_cases hc : cap ≤ n
    · simp only [if_pos hc] at he
      cases hr : scriptConn.pollRun i n with
      | mk i' z =>
      cases z with
      | pending => exact absurd hr (fun h => plain_pending ha h)
      | ready y =>
      obtain ⟨h1, rfl, h3, h4, -⟩ := plain_run ha (.inr hr)
      unfold PollConn.pollRun at hr
      rw [hr] at he
      simp only [Option.some.injEq, Prod.mk.injEq] at he
      obtain ⟨rfl, rfl⟩ := he
      exact ⟨⟨h1, by simp [View.read, hc, h3, h4]⟩, by simp [View.read, hc]⟩
    · simp only [if_neg hc] at he
      cases hr : scriptConn.pollRun i cap with
      | mk i' z =>
      cases z with
      | pending => exact absurd hr (fun h => plain_pending ha h)
      | ready y =>
      obtain ⟨h1, rfl, h3, h4, -⟩ := plain_run ha (.inr hr)
      unfold PollConn.pollRun at hr
      rw [hr] at he
      simp only [Option.some.injEq, Prod.mk.injEq] at he
      obtain ⟨rfl, rfl⟩ := he
      exact ⟨⟨h1, by simp [View.read, hc, h3, h4]⟩, by simp [View.read, hc]⟩
  · simp only [if_neg hb, Option.some.injEq, Prod.mk.injEq] at he
    obtain ⟨rfl, rfl⟩ := he
    exact ⟨⟨ha, by simp [View.read, hb]⟩, by simp [View.read, hb]⟩

/-- Writing is not seen. -/
def WriteView (N : Conn σ) (V : ConnRun σ → View → Prop) : Prop :=
  (∀ r b r' x v, V r v → N.writeRun r b = some (r', x) → V r' v) ∧ ∀ r r' x v, V r v → N.flushRun r = some (r', x) → V r' v

theorem writeN_view {f : Flavour} {N : Conn σ} {V : ConnRun σ → View → Prop} (h : WriteView N V) {c c' : OutboundCipher}
    {r r' : ConnRun σ} {q : Payload} {x : Outcome ProtocolError Unit} {v : View} (hv : V r v)
    (he : writeN fuel f N P prof c r q = some ((c', r'), x)) : V r' v := by
  have key : ∀ {fuel retry r b r' y}, V r v → N.writeAll fuel retry r b = some (r', y) → V r' v := by
    intro fuel
    induction fuel with
    | zero => intro retry r b r' y _ h; simp [Conn.writeAll] at h
    | succ fuel ih =>
      intro retry r b r' y hr hw
      unfold Conn.writeAll at hw
      have := h.1 r b
      grind
  have h2 := h.2
  unfold writeN Conn.send at he
  have k := @key fuel f.retry r
  grind

theorem plain_write_view : WriteView scriptConn.toConn plainView := by
  constructor
  · rintro ⟨⟨s, w⟩, ans, sent⟩ b r' x v hv he
    simp only [Conn.writeRun, scriptConn] at he
    split at he <;> simp only [Option.some.injEq, Prod.mk.injEq, reduceCtorEq] at he
    all_goals
      rename_i hq
      obtain ⟨rfl, rfl⟩ := he
      simp only [Option.some.injEq, Prod.mk.injEq] at hq
      obtain ⟨rfl, -⟩ := hq
      exact hv
  · rintro ⟨⟨s, w⟩, ans, sent⟩ r' x v hv he
    simp only [Conn.flushRun, scriptConn, Option.some.injEq, Prod.mk.injEq] at he
    obtain ⟨rfl, rfl⟩ := he
    exact hv

theorem buf_write_view (cap : Nat) : WriteView (bufConn cap scriptConn.toConn.logged) bufView := by
  constructor
  · rintro ⟨⟨⟨⟨s, w⟩, ia, is⟩, buf⟩, ans, sent⟩ b r' x v hv he
    simp only [Conn.writeRun, bufConn, Conn.logged, scriptConn] at he
    cases hq : (writeGo w.script b).2.2 with
    | ok m =>
      rw [hq] at he
      simp only [Option.some.injEq, Prod.mk.injEq] at he
      obtain ⟨rfl, rfl⟩ := he
      exact hv
    | error k =>
      rw [hq] at he
      simp only [Option.some.injEq, Prod.mk.injEq] at he
      obtain ⟨rfl, rfl⟩ := he
      exact hv
  · rintro ⟨⟨⟨⟨s, w⟩, ia, is⟩, buf⟩, ans, sent⟩ r' x v hv he
    simp only [Conn.flushRun, bufConn, Conn.logged, scriptConn, Option.some.injEq, Prod.mk.injEq] at he
    obtain ⟨rfl, rfl⟩ := he
    exact hv


/-! ## The sessions -/

theorem decrypt_size (hP : Lawful P) {c c' : InboundCipher} {ct buf out : Bytes} {aad : Option Bytes} {ty : PacketType}
    (hb : buf.length = ct.length - 16) (h : c.decrypt P prof ct buf aad = (c', out, .ok ty)) :
    17 ≤ ct.length ∧ out.length + 16 = ct.length := by
  unfold InboundCipher.decrypt at h
  simp only [NUM_TAG_BYTES, NUM_HEADER_BYTES] at h
  split at h
  · simp at h
  rename_i hl
  split at h
  · simp at h
  split at h
  · simp at h
  · simp at h
  · rename_i pc plain hd
    have hlen : plain.length = ct.length - 16 := by
      unfold FSAead.decrypt at hd
      split at hd
      · simp at hd
      · rename_i q ho
        split at hd
        · simp at hd
        · simp only [FSAead.DecryptResult.ok.injEq] at hd
          obtain ⟨-, rfl⟩ := hd
          have h1 := (hP.open_iff ..).1 ho
          have h2 := hP.seal_length c.packetCipher.key c.packetCipher.nonce (aad.getD []) q
          rw [h1] at h2
          simp only [slice, writeAt, List.length_take, List.length_drop, List.length_append] at h2
          omega
    have hout : (writeAt (writeAt buf 0 (ct.take (ct.length - 16))) 0 plain).length = ct.length - 16 := by
      simp only [writeAt, List.length_take, List.length_drop, List.length_append, hlen]
      omega
    split at h
    · simp at h
    · rename_i heq
      simp only [Prod.mk.injEq] at h
      obtain ⟨-, rfl, -⟩ := h
      rw [hout]
      omega

theorem bufferLen_of_some {n m : Nat} (hn : 17 ≤ n) (h : InboundCipher.decryptionBufferLen prof n = some m) : m = n - 16 := by
  simp only [InboundCipher.decryptionBufferLen, usub, NUM_TAG_BYTES, show 16 ≤ n by omega, if_true, Option.some.injEq] at h
  exact h.symm

theorem decryptToVec_size (hP : Lawful P) {c c' : InboundCipher} {ct d : Bytes} {ty : PacketType} (hn : 17 ≤ ct.length)
    (h : c.decryptToVec P prof ct none = (c', .ok (ty, d))) : ((Payload.decrypted d).contents.getD []).length + 17 = ct.length := by
  have hne := decryptToVec_ok_nonempty h
  have hd : d.length + 16 = ct.length := by
    unfold InboundCipher.decryptToVec at h
    split at h
    · simp at h
    rename_i m hm
    have hm := bufferLen_of_some hn hm
    split at h
    · simp at h
    split at h
    · rename_i heq
      simp only [Prod.mk.injEq, Outcome.ok.injEq] at h
      obtain ⟨-, -, rfl⟩ := h
      exact (decrypt_size hP (by simp [zeros, hm]) heq).2
    · simp at h
    · simp at h
  cases d with
  | nil => exact absurd rfl hne
  | cons b d => simp only [Payload.contents, Option.getD_some, List.length_cons] at hd ⊢; omega

theorem syncCalls_view (hP : Lawful P) {N : Conn σ} {cap : Nat} {V : ConnRun σ → View → Prop} (hV : ReadView N.readRun cap V)
    (hW : WriteView N V) (cs : List Call) : ∀ {p p' : SyncN σ} {xs : List Answer} {v : View}, SyncDrained p.sess → V p.run v →
    p.calls fuel N P prof cs = some (p', xs) → (∀ a ∈ xs, a.fine) →
    V p'.run (((Answer.payloads xs).flatMap Payload.requests).foldl (View.exact cap) v) := by
  induction cs with
  | nil =>
    intro p p' xs v _ hv h _
    simp only [SyncN.calls, Option.some.injEq, Prod.mk.injEq] at h
    obtain ⟨rfl, rfl⟩ := h
    exact hv
  | cons c cs ih =>
    intro p p' xs v hd hv h hf
    cases c with
    | read =>
      simp only [SyncN.calls, SyncN.read] at h
      cases hr : syncReadN fuel N P prof p.inbound (p.sess, p.run) with
      | none => rw [hr] at h; simp at h
      | some z =>
      obtain ⟨⟨c1, s1, r1⟩, x⟩ := z
      rw [hr] at h
      simp only at h
      cases hc : SyncN.calls fuel N P prof ⟨c1, s1, p.outbound, r1⟩ cs with
      | none => rw [hc] at h; simp at h
      | some z =>
      obtain ⟨p2, xs2⟩ := z
      rw [hc] at h
      simp only [Option.some.injEq, Prod.mk.injEq] at h
      obtain ⟨rfl, rfl⟩ := h
      have hx := hf _ (List.mem_cons_self ..)
      cases x with
      | err e => simp [Answer.fine] at hx
      | panic => simp [Answer.fine] at hx
      | ok q =>
      rcases syncReadN_shape hr with ⟨y, e1, hx⟩ | ⟨s2, lb, n, y, e1, hn, e2, hx⟩
      · exact absurd rfl (hx q)
      · obtain ⟨pb, k1, k2, ty, d, rfl, hdec, rfl⟩ := hx q rfl
        obtain ⟨d1, e1⟩ := readExactN_drained true hd e1
        obtain ⟨d2, e2⟩ := readExactN_drained true d1 e2
        obtain ⟨v1, -⟩ := readExactN_view hV (by omega) hv e1
        obtain ⟨v2, hlen⟩ := readExactN_view hV (by omega) v1 e2
        simp only [List.length_nil, Nat.zero_add] at hlen
        have hsz := decryptToVec_size hP (by omega) hdec
        have := ih (p := ⟨c1, s1, p.outbound, r1⟩) d2 v2 hc (fun a ha => hf a (List.mem_cons_of_mem _ ha))
        simp only [Answer.payloads, List.flatMap_cons, List.foldl_append]
        have hreq : Payload.requests (.decrypted d) = [3, n] := by simp only [Payload.requests, hsz, hlen]
        rw [hreq]
        exact this
    | write q =>
      simp only [SyncN.calls, SyncN.write] at h
      cases hr : writeN fuel .sync N P prof p.outbound p.run q with
      | none => rw [hr] at h; simp at h
      | some z =>
      obtain ⟨⟨c1, r1⟩, x⟩ := z
      rw [hr] at h
      simp only at h
      cases hc : SyncN.calls fuel N P prof ⟨p.inbound, p.sess, c1, r1⟩ cs with
      | none => rw [hc] at h; simp at h
      | some z =>
      obtain ⟨p2, xs2⟩ := z
      rw [hc] at h
      simp only [Option.some.injEq, Prod.mk.injEq] at h
      obtain ⟨rfl, rfl⟩ := h
      have := ih (p := ⟨p.inbound, p.sess, c1, r1⟩) hd (writeN_view hW hv hr) hc (fun a ha => hf a (List.mem_cons_of_mem _ ha))
      exact this

/-- Filling a buffer with polls that are all ready is `read_exact`. -/
theorem pollFillN_exact {N : PollConn σ} (hN : N.Keeps) : ∀ {fuel : Nat} {s s' : (Bytes × Nat) × ConnRun σ} {buf buf' : Bytes}
    {n n' : Nat} (acc : Bytes), AsyncN.leftover s.1 = 0 → n ≤ buf.length → pollFillN fuel N s buf n = some (.full s' buf' n') →
    AsyncN.leftover s'.1 = 0 ∧ buf'.length = buf.length ∧
    ∃ out, readExactN fuel N.pollAs false s.2 (buf.length - n) acc = some (s'.2, .ok out) := by
  intro fuel
  induction fuel with
  | zero => intro s s' buf buf' n n' acc _ _ h; simp [pollFillN] at h
  | succ fuel ih =>
    intro s s' buf buf' n n' acc hs hn h
    unfold pollFillN at h
    unfold readExactN
    by_cases h0 : n < buf.length
    · simp only [if_pos h0] at h
      have h0' : buf.length - n ≠ 0 := by omega
      rw [if_neg h0']
      have hsess : sessPollN N s (buf.length - n) = ((s.1, (N.pollRun s.2 (buf.length - n)).1), (N.pollRun s.2 (buf.length - n)).2) := by
        unfold sessPollN
        have : ¬ s.1.2 < s.1.1.length := by unfold AsyncN.leftover at hs; omega
        rw [if_neg this]
      rw [hsess] at h
      cases hp : N.pollRun s.2 (buf.length - n) with
      | mk r1 z =>
      rw [hp] at h
      have hlen : ∀ bs, z = .ready (.ok bs) → bs.length ≤ buf.length - n := by
        rintro bs rfl
        unfold PollConn.pollRun at hp
        split at hp <;> simp only [Prod.mk.injEq, PollRead.ready.injEq, ReadRes.ok.injEq, reduceCtorEq, and_false] at hp
        rename_i hq
        obtain ⟨-, rfl⟩ := hp
        exact hN.poll _ _ _ _ hq
      rcases z with ((_ | ⟨b, bs⟩) | k) | _
      · simp at h
      · simp only at h
        have hl := hlen _ rfl
        have hw : (writeAt buf n (b :: bs)).length = buf.length := writeAt_length (by omega)
        have hneed : (writeAt buf n (b :: bs)).length - (n + (b :: bs).length) = buf.length - n - (b :: bs).length := by omega
        obtain ⟨i1, i2, out, i3⟩ := ih (s := (s.1, r1)) (acc ++ b :: bs) hs (by omega) h
        refine ⟨i1, by omega, out, ?_⟩
        have hpa : N.pollAs s.2 (buf.length - n) = some (r1, .ok (b :: bs)) := by
          unfold PollConn.pollAs; rw [hp]
        rw [hpa]
        simp only
        rw [hneed] at i3
        exact i3
      · simp at h
      · simp at h
    · simp only [if_neg h0, Option.some.injEq, FillN.full.injEq] at h
      obtain ⟨rfl, rfl, rfl⟩ := h
      have h0' : buf.length - n = 0 := by omega
      rw [if_pos h0']
      exact ⟨hs, rfl, acc, rfl⟩

/-- The shape of a `read` of the asynchronous API that is ready at the first poll. -/
theorem pollN_shape (hP : Lawful P) {N : PollConn σ} (hN : N.Keeps) {r r' : AsyncReaderN σ} {p : Payload}
    (hs : AsyncN.leftover r.reader.1 = 0) (hst : r.state = .initReadingLength)
    (he : AsyncReaderN.poll fuel N P prof r = some (r', .ready (.ok p))) :
    AsyncN.leftover r'.reader.1 = 0 ∧ r'.state = .initReadingLength ∧ ∃ r1 lb pb,
      readExactN fuel N.pollAs false r.reader.2 3 [] = some (r1, .ok lb) ∧
      readExactN fuel N.pollAs false r1 ((p.contents.getD []).length + 17) [] = some (r'.reader.2, .ok pb) := by
  unfold AsyncReaderN.poll at he
  rw [hst] at he
  simp only [DecryptState.initReadingLength] at he
  cases hf : pollFillN fuel N r.reader (zeros NUM_LENGTH_BYTES) 0 with
  | none => rw [hf] at he; simp at he
  | some y =>
  rw [hf] at he
  cases y with
  | pending s b n => simp at he
  | err s b n k => simp at he
  | full s1 b1 n1 =>
  obtain ⟨h1, h2, lb, h3⟩ := pollFillN_exact hN [] hs (by omega) hf
  simp only at he
  cases hd : r.cipher.decryptPacketLen P prof b1 with
  | mk c1 z =>
  rw [hd] at he
  cases z with
  | err e => simp at he
  | panic => simp at he
  | ok len =>
  have hlen := decryptPacketLen_pos hd
  simp only [AsyncReaderN.pollPayload] at he
  cases hf2 : pollFillN fuel N s1 (zeros len) 0 with
  | none => rw [hf2] at he; simp at he
  | some y =>
  rw [hf2] at he
  cases y with
  | pending s b n => simp at he
  | err s b n k => simp at he
  | full s2 b2 n2 =>
  obtain ⟨j1, j2, pb, j3⟩ := pollFillN_exact hN [] h1 (by omega) hf2
  simp only [zeros, List.length_replicate, Nat.sub_zero] at h3 j2 j3
  simp only at he
  cases hbl : InboundCipher.decryptionBufferLen prof b2.length with
  | none => rw [hbl] at he; simp at he
  | some m =>
  have hm := bufferLen_of_some (by omega) hbl
  rw [hbl] at he
  simp only at he
  cases hdec : c1.decrypt P prof b2 (zeros m) none with
  | mk c2 z =>
  obtain ⟨out, z⟩ := z
  rw [hdec] at he
  cases z with
  | err e => simp at he
  | panic => simp at he
  | ok ty =>
  simp only at he
  have hsz := (decrypt_size hP (by simp [zeros, hm]) hdec).2
  have hne := decrypt_ok_nonempty hdec
  have hpay : Payload.mkDecrypted prof out = some (.decrypted out) := (mkDecrypted_usable hne).1
  rw [hpay] at he
  simp only [Option.some.injEq, Prod.mk.injEq, PollResult.ready.injEq, Outcome.ok.injEq] at he
  obtain ⟨rfl, rfl⟩ := he
  refine ⟨j1, rfl, s1.2, lb, pb, h3, ?_⟩
  have : ((Payload.decrypted out).contents.getD []).length + 17 = len := by
    cases out with
    | nil => exact absurd rfl hne
    | cons b d => simp only [Payload.contents, Option.getD_some, List.length_cons] at hsz ⊢; omega
  rw [this]
  exact j3

theorem asyncCalls_view (hP : Lawful P) {N : PollConn σ} (hN : N.Keeps) {cap : Nat} {V : ConnRun σ → View → Prop}
    (hV : ReadView N.pollAs cap V) (hW : WriteView N.toConn V) (cs : List Call) :
    ∀ {p p' : AsyncN σ} {xs : List Answer} {v : View}, AsyncN.leftover p.sess = 0 → p.state = .initReadingLength → V p.run v →
    p.calls fuel N P prof cs = some (p', xs) → (∀ a ∈ xs, a.fine) →
    V p'.run (((Answer.payloads xs).flatMap Payload.requests).foldl (View.exact cap) v) := by
  induction cs with
  | nil =>
    intro p p' xs v _ _ hv h _
    simp only [AsyncN.calls, Option.some.injEq, Prod.mk.injEq] at h
    obtain ⟨rfl, rfl⟩ := h
    exact hv
  | cons c cs ih =>
    intro p p' xs v hd hst hv h hf
    cases c with
    | read =>
      simp only [AsyncN.calls, AsyncN.pollRead] at h
      cases hq : AsyncReaderN.poll fuel N P prof ⟨p.inbound, (p.sess, p.run), p.state⟩ with
      | none => rw [hq] at h; simp at h
      | some z =>
      obtain ⟨⟨c1, ⟨s1, r1⟩, st⟩, x⟩ := z
      rw [hq] at h
      simp only at h
      cases hc : AsyncN.calls fuel N P prof ⟨c1, s1, st, p.outbound, r1⟩ cs with
      | none => rw [hc] at h; simp at h
      | some z =>
      obtain ⟨p2, xs2⟩ := z
      rw [hc] at h
      simp only [Option.some.injEq, Prod.mk.injEq] at h
      obtain ⟨rfl, rfl⟩ := h
      have hx := hf _ (List.mem_cons_self ..)
      rcases x with _ | (q | e | _)
      · simp [Answer.fine, PollResult.answer] at hx
      · obtain ⟨h1, h2, r2, lb, pb, e1, e2⟩ := pollN_shape hP hN (r := ⟨p.inbound, (p.sess, p.run), p.state⟩) hd hst hq
        obtain ⟨v1, -⟩ := readExactN_view hV (by omega) hv e1
        obtain ⟨v2, -⟩ := readExactN_view hV (by omega) v1 e2
        have := ih (p := ⟨c1, s1, st, p.outbound, r1⟩) h1 h2 v2 hc (fun a ha => hf a (List.mem_cons_of_mem _ ha))
        exact this
      · simp [Answer.fine, PollResult.answer] at hx
      · simp [Answer.fine, PollResult.answer] at hx
    | write q =>
      simp only [AsyncN.calls, AsyncN.write] at h
      cases hr : writeN fuel .async N.toConn P prof p.outbound p.run q with
      | none => rw [hr] at h; simp at h
      | some z =>
      obtain ⟨⟨c1, r1⟩, x⟩ := z
      rw [hr] at h
      simp only at h
      cases hc : AsyncN.calls fuel N P prof ⟨p.inbound, p.sess, p.state, c1, r1⟩ cs with
      | none => rw [hc] at h; simp at h
      | some z =>
      obtain ⟨p2, xs2⟩ := z
      rw [hc] at h
      simp only [Option.some.injEq, Prod.mk.injEq] at h
      obtain ⟨rfl, rfl⟩ := h
      have := ih (p := ⟨p.inbound, p.sess, p.state, c1, r1⟩) hd hst (writeN_view hW hv hr) hc
        (fun a ha => hf a (List.mem_cons_of_mem _ ha))
      exact this

end Bip324
