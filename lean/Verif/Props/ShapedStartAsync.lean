import Verif.Props.ShapedStart
import Verif.Props.Draining

/-!
# C100: the asynchronous example of the documentation of the shaped protocol
-/

namespace Bip324

open Concrete

variable {P : Prims} {prof : Profile} {G : Rng}

theorem asyncShaped_step_reader (s : AsyncShapedSys G) {l : AsyncLabel} (hl : l ≠ .read) : (s.step P prof l).reader = s.reader := by
  cases l with
  | read => exact absurd rfl hl
  | task =>
    simp only [AsyncShapedSys.step, AsyncShapedSys.taskStep]
    repeat' (split <;> try rfl)
  | _ =>
    simp only [AsyncShapedSys.step]
    repeat' (split <;> try rfl)

theorem asyncShaped_run_reader (ls : List AsyncLabel) : ∀ {s : AsyncShapedSys G}, (∀ l ∈ ls, l ≠ .read) →
    (s.run P prof ls).reader = s.reader := by
  induction ls with
  | nil => intro s _; rfl
  | cons l ls ih =>
    intro s h
    show ((s.step P prof l).run P prof ls).reader = _
    rw [ih (fun x hx => h x (by simp [hx])), asyncShaped_step_reader s (h l (by simp))]

theorem move_called (s : AsyncShapedSys G) (m : StartMove) : (s.step P prof m.label).called = s.called := by
  cases m with
  | task =>
    simp only [StartMove.label, AsyncShapedSys.step, AsyncShapedSys.taskStep]
    repeat' (split <;> try rfl)
  | _ =>
    simp only [StartMove.label, AsyncShapedSys.step]
    repeat' (split <;> try rfl)

theorem moves_called (ms : List StartMove) : ∀ s : AsyncShapedSys G, (s.run P prof (ms.map StartMove.label)).called = s.called := by
  induction ms with
  | nil => intro s; rfl
  | cons m ms ih => intro s; exact (ih _).trans (move_called s m)

theorem call_called (s : AsyncShapedSys G) (p : Payload) :
    (s.step P prof (.call p)).called = s.called ∨ (s.step P prof (.call p)).called = s.called ++ [p] := by
  simp only [AsyncShapedSys.step]
  repeat' split
  all_goals first | exact .inl rfl | exact .inr rfl

/-- C100: the asynchronous example, likewise, whatever the task has done before the read. -/
theorem C100_prints_async (hP : Lawful P) {magic : Bytes} {I R : Peer} (H : Honest P prof magic I R) :
    AllSenders P prof magic I R fun role all ms => role = .responder → ∀ m more, ms = m :: more →
      ∀ {src tail : Source} {w : Sink}, (tail = [] ∨ ∃ k, tail = [.fail k]) → w.Reliable false → Streams false src all tail →
      ∀ (G : Rng) (gen : G.State) (sh : Shaper G) (rec : List Nat),
        Shaper.handshake (R := G) ⟨⟨.random, .random⟩, gen⟩ = (sh, I.garbage, I.decoys, rec) →
      ∀ (message : Bytes) (before during : List StartMove), message.length ≤ 4000013 →
        before.length + during.length + 5 < 2 ^ 32 → ∀ x,
        shapedStartAsync (G := G) P prof magic I.rng message gen before during src w = some x →
        ∃ sent later shuffled, x = .ok (w.out ++ sent ++ later, (headed m).2) ∧ Shaped [.genuine message] shuffled ∧
          Conveys P prof magic .responder R sent (shuffled.map (·.2)) := by
  obtain ⟨i, o, hm, f0, hat⟩ := honest_roles hP H
  have f : Sessions P prof magic I R i o := by
    intro role A B w src tail k more hw he hs
    obtain ⟨w', log, s, h1, h2, h3, -⟩ := f0 role A B w src tail k more hw he hs
    exact ⟨w', log, s, h1, h2, h3⟩
  have hQ : ∀ role, OfSent P prof magic I R o
      (fun role all ms => Conveys P prof magic role.peer (role.peer.of I R) all ms) role := by
    intro role ms o' sent hS hz
    refine sent_conveys hP (hm role) ?_ hS hz
    have := f0 role.peer
    cases role
    · exact this
    · exact this
  refine all_senders hP f hat ?_
  intro role ms o' sent hS hz hr m more hms src tail w ht hw hs G gen sh rec hsh message before during hlen hcount x hx
  subst hr hms
  have he : ∃ k, EndsWith false tail k := by
    rcases ht with rfl | ⟨k, rfl⟩
    · exact ⟨_, .inl ⟨rfl, rfl⟩⟩
    · exact ⟨k, .inr (.inr ⟨[], rfl, by simp⟩)⟩
  obtain ⟨k, he⟩ := he
  obtain ⟨w1, log, s, h1, h2, h3, st⟩ := f0 .initiator asyncApi asyncAbs w src tail k sent hw he hs
  have hnew : AsyncProtocol.new P prof magic .initiator I.rng I.garbage I.decoys src w =
      .ok ⟨⟨i .initiator, s, .initReadingLength⟩, ⟨o .initiator, w1⟩⟩ := by
    unfold AsyncProtocol.new
    simp only [Role.of] at h1
    rw [h1]
  -- the packets of the peer
  have hrem := async_remaining st
  have htb : Source.bytes tail = [] := by rcases ht with rfl | ⟨k, rfl⟩ <;> rfl
  rw [htb, List.append_nil] at hrem
  obtain ⟨c, hc1, hc2, -⟩ := st
  obtain ⟨vs, hv, hb⟩ := sent_backlog hS (fun p hp c hc => by have := hz p hp c hc; omega)
  have hi : AsyncReader.Inv P prof ⟨i .initiator, s, .initReadingLength⟩ vs :=
    ⟨rfl, by omega, o .responder, hm .responder, by simpa [hrem] using hb⟩
  obtain ⟨r', hrd⟩ : ∃ r', AsyncReader.await P prof (s.size + 1) ⟨i .initiator, s, .initReadingLength⟩ = (r', .ok (delivered (headed m))) := by
    obtain ⟨r', ⟨t, c', vs', rfl, hrd, -⟩ | ⟨rfl, -⟩⟩ := await_quiet hP ht (s.size + 1) ⟨i .initiator, s, .initReadingLength⟩ vs
      (by show s.size < _; omega) hi ⟨c, hc1, hc2⟩
    · simp only [List.map_cons, List.cons.injEq] at hv
      refine ⟨r', ?_⟩
      rw [hrd, headed_of_view hv.1]
      cases t <;> rfl
    · simp at hv
  -- the shaped writer
  have hsys : AsyncShapedSys.new (R := G) P prof magic .initiator I.rng shapedStartConfig gen src w =
      .ok (.init ⟨⟨i .initiator, s, .initReadingLength⟩, ⟨o .initiator, w1⟩⟩ sh rec) := by
    unfold AsyncShapedSys.new
    rw [show Shaper.handshake (R := G) ⟨shapedStartConfig, gen⟩ = _ from hsh]
    simp only [hnew]
  obtain ⟨s0, e1, e2⟩ := task_senders hP f .initiator (hat .initiator) (hQ .initiator) (config := shapedStartConfig) hsh hw he hs
  rw [show AsyncShapedSys.new (R := G) P prof magic .initiator (Role.initiator.of I R).rng shapedStartConfig gen src w = _ from hsys,
    Outcome.ok.injEq] at e1
  unfold shapedStartAsync at hx
  rw [hsys, e1] at hx
  simp only at hx
  have h0 : s0.Fresh := by rw [← e1]; exact AsyncShapedSys.init_fresh ..
  have hws : s0.ws.writer = ⟨o .initiator, w1⟩ := by rw [← e1]; rfl
  have hreader : s0.reader = ⟨⟨i .initiator, s, .initReadingLength⟩, []⟩ := by rw [← e1]; rfl
  have hcalled : (s0.run P prof (before.map StartMove.label ++ .call (.genuine message) :: during.map StartMove.label)).called = [] ∨
      (s0.run P prof (before.map StartMove.label ++ .call (.genuine message) :: during.map StartMove.label)).called = [.genuine message] := by
    rw [show ∀ l1 l2, s0.run P prof (l1 ++ l2) = (s0.run P prof l1).run P prof l2 by
      intro l1 l2; simp [AsyncShapedSys.run, List.foldl_append]]
    have hb := moves_called (P := P) (prof := prof) before s0
    generalize s0.run P prof (before.map StartMove.label) = t at hb
    rw [h0.called] at hb
    show ((t.step P prof (.call (.genuine message))).run P prof (during.map StartMove.label)).called = [] ∨
      ((t.step P prof (.call (.genuine message))).run P prof (during.map StartMove.label)).called = _
    rw [moves_called]
    rcases call_called (P := P) (prof := prof) t (.genuine message) with h | h <;> rw [h, hb]
    · exact .inl rfl
    · exact .inr rfl
  generalize hls : before.map StartMove.label ++ AsyncLabel.call (.genuine message) :: during.map StartMove.label = ls at hx hcalled
  have hread : ∀ l ∈ ls, l ≠ .read := by
    rw [← hls]
    intro l hl
    simp only [List.mem_append, List.mem_cons, List.mem_map] at hl
    rcases hl with ⟨t, -, rfl⟩ | rfl | ⟨t, -, rfl⟩
    · cases t <;> simp [StartMove.label]
    · simp
    · cases t <;> simp [StartMove.label]
  have hcall : ∀ q, AsyncLabel.call q ∈ ls → q = .genuine message := by
    rw [← hls]
    intro q hl
    simp only [List.mem_append, List.mem_cons, List.mem_map] at hl
    rcases hl with ⟨t, -, hl⟩ | hl | ⟨t, -, hl⟩
    · cases t <;> cases hl
    · cases hl; rfl
    · cases t <;> cases hl
  have hlen' : ls.length = before.length + during.length + 1 := by rw [← hls]; simp; omega
  have hnp := (e2 ls (fun q hq => by rw [hcall q hq]; exact usable_genuine _) (by omega)
    (fun q hq c hc => by rw [hcall q hq] at hc; cases hc; exact hlen) _ rfl).1
  have hI := (h0.inv (P := P) (prof := prof)).run ls
  have hrd' := asyncShaped_run_reader (P := P) (prof := prof) ls (s := s0) hread
  rw [hreader] at hrd'
  generalize s0.run P prof ls = s1 at hx hnp hI hrd' hcalled
  rw [hrd'] at hx
  simp only [hrd] at hx
  simp only [show (delivered (headed m)).contents = some (headed m).2 from rfl] at hx
  obtain ⟨tr, hnp', -, ⟨ret, gone, g1, g2, g3⟩, hI⟩ := hI
  have hsub : ret.Sublist (writesOf tr) := by
    rcases g3 with ⟨-, e⟩ | ⟨p, c, -, -, -, e⟩
    · exact e
    · exact e.trans (List.take_sublist _ _)
  have hg : gone = [] := by
    by_contra hg
    exact hnp (g2 hg)
  subst hg
  rw [List.map_nil, List.append_nil] at g1
  obtain ⟨ws, hser, hpre, hw'⟩ : ∃ ws, Serial .async P prof s0.ws tr ws ∧ ws.writer.writer.out <+: s1.ws.writer.writer.out ∧
      writtenBy tr <+: s1.called := by
    rcases hI with ⟨_, _, _, a, b, -⟩ | ⟨_, _, _, _, _, b, _, _, ws, a1, a2⟩ | ⟨_, _, _, _, b, _, ws, a1, a2⟩ | ⟨_, _, a, -⟩
    · exact ⟨_, a, List.prefix_rfl, ⟨_, b.symm⟩⟩
    · exact ⟨ws, a1, a2, ⟨_, b.symm⟩⟩
    · exact ⟨ws, a1, a2, ⟨_, b.symm⟩⟩
    · exact absurd a hnp
  have hok : ∀ x ∈ tr, x.2 = .ok () := by
    intro x hx
    rcases hser.reliable (by rw [hws]; exact h2) x hx with h | h
    · exact h
    · exact absurd h (hnp' x hx)
  have hret : ∀ x ∈ s1.returned, x.2 = .ok () := by
    intro x hx
    rw [g1] at hx
    exact hok _ (mem_writesOf (hsub.subset hx))
  obtain ⟨m', bytes, k1, k2, k3, k4⟩ := hser.sent hok
  rw [hws] at k1 k2
  split at hx
  · rename_i b
    have := hret _ (by rw [b]; exact List.mem_singleton_self _)
    simp at this
  · rename_i b
    have := hret _ (by rw [b]; exact List.mem_singleton_self _)
    simp at this
  · rename_i q b
    have hone : writtenBy tr = [.genuine message] := by
      have hlen1 : 1 ≤ (writtenBy tr).length := by
        have h := hsub.length_le
        rw [← g1, b] at h
        unfold writtenBy
        rw [List.length_map]
        exact h
      rcases hcalled with h | h
      · rw [h] at hw'
        have := hw'.length_le
        rw [List.length_nil] at this
        omega
      · rw [h] at hw'
        exact hw'.eq_of_length (by have := hw'.length_le; rw [List.length_singleton] at this ⊢; omega)
    obtain ⟨later, hlater⟩ := hpre
    refine ⟨flight P magic I R .initiator ++ bytes, later, m', ?_, ⟨by rw [k3, hone], k4⟩, ?_⟩
    · simp only [Option.some.injEq] at hx
      rw [← hx, ← hlater, k2]
      simp only [h3, List.append_assoc]
    · refine hQ .initiator _ _ bytes k1 (marked_sizes (by omega) (k3.trans hone) k4 ?_)
      intro p hp c hc
      rw [List.mem_singleton.1 hp] at hc
      cases hc
      exact hlen
  · exact absurd hx (by simp)

theorem move_idle {s : AsyncShapedSys G} (m : StartMove) (h : s.caller = .idle) :
    (s.step P prof m.label).caller = .idle ∧ (s.step P prof m.label).returned = s.returned := by
  cases m with
  | task =>
    simp only [StartMove.label, AsyncShapedSys.step, AsyncShapedSys.taskStep]
    repeat' split
    all_goals exact ⟨h, rfl⟩
  | resume => simp only [StartMove.label, AsyncShapedSys.step, h]; exact ⟨trivial, trivial⟩
  | _ =>
    simp only [StartMove.label, AsyncShapedSys.step]
    repeat' split
    all_goals exact ⟨h, rfl⟩

theorem moves_idle (ms : List StartMove) : ∀ {s : AsyncShapedSys G}, s.caller = .idle →
    (s.run P prof (ms.map StartMove.label)).caller = .idle ∧ (s.run P prof (ms.map StartMove.label)).returned = s.returned := by
  induction ms with
  | nil => intro s h; exact ⟨h, rfl⟩
  | cons m ms ih =>
    intro s h
    obtain ⟨h1, h2⟩ := move_idle (P := P) (prof := prof) m h
    obtain ⟨h3, h4⟩ := ih h1
    exact ⟨h3, h4.trans h2⟩

/-- C100: the asynchronous write can always return too: the task only has to go on, and one more poll is enough. -/
theorem C100_returns_async (magic rng message : Bytes) (gen : G.State) (before : List StartMove) (src : Source) (w : Sink) :
    ∃ during x, (∀ m ∈ during.dropLast, m = .recv ∨ m = .task) ∧
      shapedStartAsync (G := G) P prof magic rng message gen before during src w = some x := by
  unfold shapedStartAsync
  cases hnew : AsyncShapedSys.new (R := G) P prof magic .initiator rng shapedStartConfig gen src w with
  | panic => exact ⟨[], _, by simp, rfl⟩
  | err e => exact ⟨[], _, by simp, rfl⟩
  | ok s0 =>
    have h0 : s0.Fresh ∧ s0.closed = false ∧ s0.caller = .idle := by
      unfold AsyncShapedSys.new at hnew
      simp only at hnew
      split at hnew
      · cases hnew
      · cases hnew
      · obtain rfl := Outcome.ok.inj hnew
        exact ⟨AsyncShapedSys.init_fresh .., rfl, rfl⟩
    obtain ⟨h0, hcl, hid⟩ := h0
    have fin : ∀ (t : AsyncShapedSys G) q z, t.returned = [(q, z)] → ∃ x,
        (match t.returned with
        | [(_, .panic)] => some Outcome.panic
        | [(_, .err e)] => some (.err e)
        | [(_, .ok ())] =>
          match t.reader.reader.await P prof (t.reader.reader.reader.size + 1) with
          | (_, .panic) => some .panic
          | (_, .err e) => some (.err e)
          | (_, .ok received) =>
            match received.contents with
            | none => some .panic
            | some contents => some (.ok (t.ws.writer.writer.out, contents))
        | _ => none) = some x := by
      intro t q z h
      rw [h]
      cases z with
      | panic => exact ⟨_, rfl⟩
      | err e => exact ⟨_, rfl⟩
      | ok u =>
        simp only
        split
        · exact ⟨_, rfl⟩
        · exact ⟨_, rfl⟩
        · split <;> exact ⟨_, rfl⟩
    obtain ⟨b1, b2⟩ := moves_idle (P := P) (prof := prof) before hid
    rw [h0.returned] at b2
    have hsplit : ∀ d : List StartMove, s0.run P prof (before.map StartMove.label ++ .call (.genuine message) :: d.map StartMove.label) =
        s0.run P prof (before.map StartMove.label ++ [.call (.genuine message)] ++ d.map StartMove.label) := by
      intro d; simp
    cases hend : (s0.run P prof (before.map StartMove.label)).task.ended with
    | true =>
      obtain ⟨x, hx⟩ := fin (s0.run P prof (before.map StartMove.label ++ [.call (.genuine message)])) (.genuine message) (.err taskGone) (by
        rw [AsyncShapedSys.run_append]
        generalize s0.run P prof (before.map StartMove.label) = t at b1 b2 hend
        show (t.step P prof (.call (.genuine message))).returned = _
        simp only [AsyncShapedSys.step, b1, hend, if_true, b2, List.nil_append])
      exact ⟨[], x, by simp, hx⟩
    | false =>
      have hc : (s0.run P prof (before.map StartMove.label ++ [.call (.genuine message)])).caller =
            .waiting (.genuine message) (s0.run P prof (before.map StartMove.label)).called.length ∧
          (s0.run P prof (before.map StartMove.label ++ [.call (.genuine message)])).returned = [] := by
        rw [AsyncShapedSys.run_append]
        generalize s0.run P prof (before.map StartMove.label) = t at b1 b2 hend
        show (t.step P prof (.call (.genuine message))).caller = _ ∧ (t.step P prof (.call (.genuine message))).returned = _
        simp [AsyncShapedSys.step, b1, hend, b2]
      obtain ⟨ls', r, k1, k2, -⟩ := C52_answered h0 hcl _ hc.1
      rw [hc.2, List.nil_append] at k2
      obtain ⟨d, hd1, hd2⟩ : ∃ d : List StartMove, (∀ m ∈ d, m = .recv ∨ m = .task) ∧ d.map StartMove.label = ls' := by
        clear k2
        induction ls' with
        | nil => exact ⟨[], by simp, rfl⟩
        | cons l ls ih =>
          obtain ⟨d, i1, i2⟩ := ih (fun l hl => k1 l (by simp [hl]))
          rcases k1 l (by simp) with rfl | rfl
          · exact ⟨.recv :: d, by simpa using i1, by simp [i2, StartMove.label]⟩
          · exact ⟨.task :: d, by simpa using i1, by simp [i2, StartMove.label]⟩
      obtain ⟨x, hx⟩ := fin _ _ _ k2
      refine ⟨d ++ [.resume], x, by simpa using hd1, ?_⟩
      simp only
      rw [hsplit, List.map_append, hd2, ← List.append_assoc]
      exact hx

/-- C100: `C100_padded` for the asynchronous example and an asynchronous peer. -/
theorem C100_padded_async (hP : Lawful P) {magic : Bytes} {I R : Peer} (H : Honest P prof magic I R) {w : Sink} (hw : w.Reliable false)
    {src tail : Source} {k : ErrorKind} {more : Bytes} (hend : EndsWith false tail k)
    (hs : Streams false src (flight P magic I R .initiator ++ more) tail) :
    ∃ p, AsyncProtocol.new P prof magic .responder R.rng R.garbage R.decoys src w = .ok p ∧
      ∀ {G : Rng} {ws ws' : WriterState G} {answer : Payload}, ws.writer = p.writer → ws.shaper.config.padding = .random →
        (∀ c, answer.contents = some c → c.length ≤ 4000013) → ws.write .async P prof answer = (ws', .ok ()) →
        ∀ all, ws'.writer.writer.out = w.out ++ all →
        ∀ {src' tail' : Source} {w' : Sink}, (tail' = [] ∨ ∃ k, tail' = [.fail k]) → w'.Reliable false → Streams false src' all tail' →
        ∀ (G : Rng) (gen : G.State) (sh : Shaper G) (rec : List Nat),
          Shaper.handshake (R := G) ⟨⟨.random, .random⟩, gen⟩ = (sh, I.garbage, I.decoys, rec) →
        ∀ (message : Bytes) (before during : List StartMove), message.length ≤ 4000013 →
          before.length + during.length + 5 < 2 ^ 32 → ∀ x,
          shapedStartAsync (G := G) P prof magic I.rng message gen before during src' w' = some x →
          ∃ sent n, 1 ≤ n ∧ n ≤ 1024 ∧ x = .ok (sent, zeros n) := by
  obtain ⟨p, h1, h2⟩ := (C100_prints_async hP H).async .responder w src tail k more hw hend hs
  refine ⟨p, h1, ?_⟩
  intro G ws ws' answer hws hpad hlen hwrite all hall src' tail' w' hend' hw' hs' G' gen sh rec hsh message before during hm hc x hx
  obtain ⟨n, w0, n1, n2, e1, e2⟩ := C58_pair_partial hpad hwrite
  rw [hws] at e1
  have hmany : p.writer.writeMany .async P prof [.decoy (zeros n), answer] = (ws'.writer, [.ok (), .ok ()]) := by
    simp only [Writer.writeMany, e1, e2]
  have hz : ∀ q ∈ [Payload.decoy (zeros n), answer], ∀ c, q.contents = some c → c.length ≤ 4000013 := by
    intro q hq c hc
    rcases List.mem_cons.1 hq with rfl | hq
    · rw [show (Payload.decoy (zeros n)).contents = some (zeros n) from rfl, Option.some.injEq] at hc
      rw [← hc, zeros_length]; omega
    · rw [List.mem_singleton.1 hq] at hc
      exact hlen c hc
  obtain ⟨sent, later, -, hx', -⟩ := h2 _ _ _ hmany (by simp) hz all hall rfl _ _ rfl hend' hw' hs' G' gen sh rec hsh
    message before during hm hc x hx
  exact ⟨_, n, n1, n2, hx'⟩

/-- C100 for the asynchronous example, with the cryptography of the RFCs, BIP-324 and secp256k1. -/
theorem C100_real_async (enc : Bytes → Bytes) (henc : ∀ sk, (enc sk).length = 64) {magic : Bytes} {I R : Peer}
    (H : Honest (rfc (secpWith enc)) prof magic I R) :
    AllSenders (rfc (secpWith enc)) prof magic I R fun role all ms => role = .responder → ∀ m more, ms = m :: more →
      ∀ {src tail : Source} {w : Sink}, (tail = [] ∨ ∃ k, tail = [.fail k]) → w.Reliable false → Streams false src all tail →
      ∀ (G : Rng) (gen : G.State) (sh : Shaper G) (rec : List Nat),
        Shaper.handshake (R := G) ⟨⟨.random, .random⟩, gen⟩ = (sh, I.garbage, I.decoys, rec) →
      ∀ (message : Bytes) (before during : List StartMove), message.length ≤ 4000013 →
        before.length + during.length + 5 < 2 ^ 32 → ∀ x,
        shapedStartAsync (G := G) (rfc (secpWith enc)) prof magic I.rng message gen before during src w = some x →
        ∃ sent later shuffled, x = .ok (w.out ++ sent ++ later, (headed m).2) ∧ Shaped [.genuine message] shuffled ∧
          Conveys (rfc (secpWith enc)) prof magic .responder R sent (shuffled.map (·.2)) :=
  C100_prints_async (C53_real_lawful enc henc) H

example := C100_real_async (prof := .release) ellswiftOf (fun _ => ellswiftEncode_length _) (magic := [0xF9, 0xBE, 0xB4, 0xD9]) real_pair

/-- What the asynchronous example sends and prints, as in `shapedStartExample`. -/
def shapedStartAsyncExample (padding : PaddingStrategy) (before during : List StartMove) : Option (Nat × Bytes) :=
  let own := Spec.madeUp toy [1, 2, 3, 4] (leBytes 32 99) false (toy.ellswift (leBytes 32 77)) [42, 42] [[7, 7, 7]] []
  match SyncProtocol.new toy .debug [1, 2, 3, 4] .responder (leBytes 32 99) none none [.data own] ⟨[], [], []⟩ with
  | .ok p =>
    match WriterState.write (R := listRng) .sync toy .debug ⟨p.writer, ⟨⟨padding, .disabled⟩, [9]⟩, []⟩ (.genuine [1, 2, 3]) with
    | (ws, .ok ()) =>
      match shapedStartAsync (G := listRng) toy .debug [1, 2, 3, 4] (leBytes 32 77) [104, 105] [2, 42, 1, 3, 7, 4, 5, 6] before during
          [.data ws.writer.writer.out] ⟨[], [], []⟩ with
      | some (.ok (sent, n)) => some (sent.length - own.length, n)
      | _ => none
    | _ => none
  | _ => none

/- The peer sends [1, 2, 3]: read while the background task is writing; when it is a decoy instead, the example prints
nine zeros, its contents. -/
example : shapedStartAsyncExample .disabled [] (.recv :: List.replicate 12 .task ++ [.resume]) = some (46, [1, 2, 3]) := by
  decide +kernel
example : shapedStartAsyncExample .random [.tick, .task] (List.replicate 14 .task ++ .recv :: List.replicate 12 .task ++ [.resume]) =
    some (47, [0, 0, 0, 0, 0, 0, 0, 0, 0]) := by decide +kernel
/- The call has not finished while the task has not written the packet. -/
example : shapedStartAsyncExample .disabled [] (.recv :: List.replicate 11 .task ++ [.resume]) = none := by decide +kernel

end Bip324
