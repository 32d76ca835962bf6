import Verif.Model.ShapedStart
import Verif.Props.Quick
import Verif.Props.ShapedWrite
import Verif.Props.Locking

/-!
# C100: the example of the documentation of the shaped protocol
-/

namespace Bip324

open Concrete

variable {P : Prims} {prof : Profile} {G : Rng}

/-- Only `read` changes the reader. -/
theorem shaped_step_reader (s : ShapedSys G) {l : SysLabel} (hl : l ≠ .read) : (s.step P prof l).reader = s.reader := by
  cases l with
  | read => exact absurd rfl hl
  | call p => simp only [ShapedSys.step]; split <;> rfl
  | drop => simp only [ShapedSys.step]; split <;> rfl
  | app =>
    simp only [ShapedSys.step, ShapedSys.appStep]
    repeat' (split <;> try rfl)
  | bg =>
    simp only [ShapedSys.step, ShapedSys.bgStep]
    repeat' (split <;> try rfl)

theorem shaped_run_reader (ls : List SysLabel) : ∀ {s : ShapedSys G}, (∀ l ∈ ls, l ≠ .read) → (s.run P prof ls).reader = s.reader := by
  induction ls with
  | nil => intro s _; rfl
  | cons l ls ih =>
    intro s h
    show ((s.step P prof l).run P prof ls).reader = _
    rw [ih (fun x hx => h x (by simp [hx])), shaped_step_reader s (h l (by simp))]

theorem shaped_run_out (ls : List SysLabel) : ∀ s : ShapedSys G, s.ws.writer.writer.out <+: (s.run P prof ls).ws.writer.writer.out := by
  induction ls with
  | nil => intro s; exact List.prefix_refl _
  | cons l ls ih => intro s; exact (s.step_grows l).1.trans (ih _)

/-- C100: the example of the documentation of the shaped protocol, with any generator and any schedule of its two threads in which `write`
returns, against any honest peer that sends at least one packet: `write` is successful, the peer, of whatever kind, receives the message
among decoys of at most 1024 zero bytes, and the program prints the contents of the first packet, whether that is a decoy or not. -/
theorem C100_prints (hP : Lawful P) {magic : Bytes} {I R : Peer} (H : Honest P prof magic I R) :
    AllSenders P prof magic I R fun role all ms => role = .responder →
      ((role.of I R).decoys.getD []).length + ms.length + 1 < 2 ^ 32 → ∀ m more, ms = m :: more →
      ∀ {src tail : Source} {k : ErrorKind} {w : Sink}, EndsWith true tail k → w.Reliable true → Streams false src all tail →
      ∀ (G : Rng) (gen : G.State) (sh : Shaper G) (rec : List Nat),
        Shaper.handshake (R := G) ⟨⟨.random, .random⟩, gen⟩ = (sh, I.garbage, I.decoys, rec) →
      ∀ (message : Bytes) (before : Nat) (during : List Tid) (after : Nat), message.length ≤ 4000013 →
        before + during.length + 6 < 2 ^ 32 → ∀ x,
        shapedStart (G := G) P prof magic I.rng message gen before during after src w = some x →
        ∃ sent shuffled, x = .ok (w.out ++ sent, (headed m).2) ∧ Shaped [.genuine message] shuffled ∧
          Conveys P prof magic .responder R sent (shuffled.map (·.2)) := by
  obtain ⟨i, o, f, hat, hQ⟩ := honest_ofSent hP H
  refine all_senders hP f hat ?_
  intro role ms o' sent hS hz hr hn m more hms src tail k w hend hw hs G gen sh rec hsh message before during after hlen hcount x hx
  subst hr hms
  -- the handshake
  obtain ⟨w1, log, s, h1, h2, h3⟩ := f .initiator syncApi syncAbs w src tail k sent hw hend hs
  have hnew : SyncProtocol.new P prof magic .initiator I.rng I.garbage I.decoys src w = .ok ⟨⟨i .initiator, s⟩, ⟨o .initiator, w1⟩⟩ := by
    unfold SyncProtocol.new
    simp only [Role.of] at h1
    rw [h1]
  -- what the peer has sent
  obtain ⟨hst, -⟩ := sent_stream hP hS (sessions_at hP H f .responder) (by omega)
  have hdp := dirs_peer hP H .initiator
  have hmu : flight P magic I R .responder ++ sent = Spec.madeUp P magic I.rng true (P.ellswift R.rng) (R.garbage.getD [])
      (R.decoys.getD []) ((m :: more).map headed) ++ [] := by
    rw [hst, flight_transcript hP H .responder, List.append_nil, show (Role.responder.dirs P magic I R).1 =
      (Role.initiator.dirs P magic I R).2 from hdp]
    rfl
  obtain ⟨hadm, -⟩ := honest_madeUp hP H .responder
  have hs0 := hs
  rw [hmu] at hs
  obtain ⟨p, g1, g2, -⟩ := C94_accepted (role := .initiator) (me := I) hP (honest_ready H .initiator) hw hend
    (by simpa [Nat.add_right_comm] using hn) hadm (headed_length hz) hs
  rw [hnew, Outcome.ok.injEq] at g1
  subst g1
  rw [List.length_map, List.length_cons, List.map_cons, List.map_cons, SyncReader.readMany] at g2
  simp only [List.cons.injEq] at g2
  obtain ⟨r', hrd⟩ : ∃ r', (⟨i .initiator, s⟩ : SyncReader).read P prof = (r', .ok (delivered (headed m))) :=
    ⟨_, Prod.ext rfl g2.1⟩
  -- the shaped writer
  obtain ⟨s0, e1, e2⟩ := threads_senders hP f .initiator (hat .initiator) (hQ .initiator) (config := shapedStartConfig) hsh hw hend hs0
  have hs0' : s0 = .init ⟨⟨i .initiator, s⟩, ⟨o .initiator, w1⟩⟩ sh rec := by
    unfold ShapedSys.new at e1
    simp only [Role.of] at e1
    rw [show Shaper.handshake (R := G) ⟨shapedStartConfig, gen⟩ = _ from hsh] at e1
    simp only [hnew, Outcome.ok.injEq] at e1
    exact e1.symm
  unfold shapedStart at hx
  rw [show ShapedSys.new (R := G) P prof magic .initiator I.rng shapedStartConfig gen src w = .ok s0 from e1] at hx
  simp only at hx
  generalize hls : (List.replicate before SysLabel.bg ++ SysLabel.call (.genuine message) :: during.map fun
      | .app => .app
      | .bg => .bg) = ls at hx
  have hread : ∀ l ∈ ls, l ≠ .read := by
    rw [← hls]
    intro l hl
    simp only [List.mem_append, List.mem_replicate, List.mem_cons, List.mem_map] at hl
    rcases hl with ⟨-, rfl⟩ | rfl | ⟨t, -, rfl⟩ <;> try simp
    cases t <;> simp
  have hcall : ∀ q, SysLabel.call q ∈ ls → q = .genuine message := by
    rw [← hls]
    intro q hl
    simp only [List.mem_append, List.mem_replicate, List.mem_cons, List.mem_map] at hl
    rcases hl with ⟨-, hl⟩ | hl | ⟨t, -, hl⟩
    · cases hl
    · cases hl; rfl
    · cases t <;> cases hl
  have hlen' : ls.length = before + during.length + 1 := by rw [← hls]; simp; omega
  have hcall' : ∀ q, SysLabel.call q ∈ ls ++ [.app] → q = .genuine message := by
    intro q hq
    rcases List.mem_append.1 hq with hq | hq
    · exact hcall q hq
    · simp at hq
  have hrun : (s0.run P prof ls).step P prof .app = s0.run P prof (ls ++ [.app]) := by
    simp [ShapedSys.run, List.foldl_append]
  have key := e2 (ls ++ [.app]) (fun q hq => by rw [hcall' q hq]; exact usable_genuine _) (by simp; omega)
    (fun q hq c hc => by rw [hcall' q hq] at hc; cases hc; exact hlen) _ rfl
  rw [← hrun] at key
  -- what is written, and by whom
  have h0 : s0.Fresh := by rw [hs0']; exact ShapedSys.init_fresh ..
  have hI := ((h0.inv (P := P) (prof := prof)).run (ls ++ [.app])).1
  rw [← hrun] at hI
  have hcm : ∀ q ∈ ((s0.run P prof ls).step P prof .app).called, q = .genuine message := by
    intro q hq
    rw [hrun] at hq
    rcases called_mem _ hq with h | h
    · rw [h0.called] at h; cases h
    · exact hcall' q h
  have hgrow : w1.out <+: ((s0.run P prof ls).step P prof .app).ws.writer.writer.out := by
    have := shaped_run_out (P := P) (prof := prof) (ls ++ [.app]) s0
    rw [← hrun] at this
    rw [hs0'] at this ⊢
    exact this
  have hrd' : (((s0.run P prof ls).step P prof .app).run P prof (List.replicate after .bg)).reader = ⟨⟨i .initiator, s⟩, []⟩ := by
    rw [shaped_run_reader _ (fun l hl => by rw [List.eq_of_mem_replicate hl]; simp), shaped_step_reader _ (by simp),
      shaped_run_reader _ hread, hs0']
    rfl
  have hread' : ∃ r'', ShapedReader.read P prof ⟨⟨i .initiator, s⟩, []⟩ = (r'', .ok (delivered (headed m))) := by
    unfold ShapedReader.read
    simp only [hrd]
    rw [show (delivered (headed m)).contents = some (headed m).2 from rfl]
    exact ⟨_, rfl⟩
  obtain ⟨r'', hread'⟩ := hread'
  rw [hrd', hread'] at hx
  simp only [show (delivered (headed m)).contents = some (headed m).2 from rfl] at hx
  have free := fun (a : (s0.run P prof ls).returned = []) (b : ((s0.run P prof ls).step P prof .app).returned ≠ []) =>
    ((s0.run P prof ls).step_grows (P := P) (prof := prof) .app).2.resolve_left (a ▸ b)
  generalize (s0.run P prof ls).step P prof .app = s1 at hx key hI hcm hgrow free
  generalize s0.run P prof ls = s2 at hx free
  obtain ⟨sent', hsent'⟩ := hgrow
  rw [h3, List.append_assoc] at hsent'
  have done : s2.returned = [] → s1.returned ≠ [] → (∀ x ∈ s1.returned, x.2 = .ok ()) ∧
      ∃ m', Shaped (s1.returned.map (·.1)) m' ∧ Conveys P prof magic .responder R (flight P magic I R .initiator ++ sent') (m'.map (·.2)) :=
    fun a b => ⟨(key (free a b)).1, (key (free a b)).2 _ hsent'.symm⟩
  split at hx
  · rename_i a b
    have := (done a (by simp [b])).1 _ (by rw [b]; exact List.mem_singleton_self _)
    simp at this
  · rename_i a b
    have := (done a (by simp [b])).1 _ (by rw [b]; exact List.mem_singleton_self _)
    simp at this
  · rename_i q a b
    obtain ⟨-, m', k1, k2⟩ := done a (by simp [b])
    have hq := hcm q (by rw [hI, b]; simp)
    rw [b, hq] at k1
    refine ⟨_, m', ?_, k1, k2⟩
    simp only [Option.some.injEq] at hx
    rw [← hx, ← hsent']
  · exact absurd hx (by simp)

theorem app_returns_one (s : ShapedSys G) :
    (s.step P prof .app).returned = s.returned ∨ ∃ x, (s.step P prof .app).returned = s.returned ++ [x] := by
  simp only [ShapedSys.step, ShapedSys.appStep]
  repeat' split
  all_goals first | exact .inl rfl | exact .inr ⟨_, rfl⟩

theorem bg_keeps (n : Nat) : ∀ s : ShapedSys G, (s.run P prof (List.replicate n .bg)).returned = s.returned ∧
    (s.run P prof (List.replicate n .bg)).app = s.app := by
  induction n with
  | zero => intro s; exact ⟨rfl, rfl⟩
  | succ n ih =>
    intro s
    have h : (s.step P prof .bg).returned = s.returned ∧ (s.step P prof .bg).app = s.app := by
      simp only [ShapedSys.step, ShapedSys.bgStep]
      repeat' split
      all_goals exact ⟨rfl, rfl⟩
    have := ih (s.step P prof .bg)
    rw [h.1, h.2] at this
    exact this

/-- C100: the write can always return, whatever the peer, the transport and the decoy thread have done before. -/
theorem C100_returns (magic rng message : Bytes) (gen : G.State) (before after : Nat) (src : Source) (w : Sink) :
    ∃ during x, shapedStart (G := G) P prof magic rng message gen before during after src w = some x := by
  unfold shapedStart
  cases hnew : ShapedSys.new (R := G) P prof magic .initiator rng shapedStartConfig gen src w with
  | panic => exact ⟨[], _, rfl⟩
  | err e => exact ⟨[], _, rfl⟩
  | ok s0 =>
    have h0 : s0.Fresh := by
      unfold ShapedSys.new at hnew
      simp only at hnew
      split at hnew
      · cases hnew
      · cases hnew
      · obtain rfl := Outcome.ok.inj hnew
        exact ShapedSys.init_fresh ..
    have happ : ∀ l1 l2, s0.run P prof (l1 ++ l2) = (s0.run P prof l1).run P prof l2 := by
      intro l1 l2; simp [ShapedSys.run, List.foldl_append]
    have hcall : (s0.run P prof (List.replicate before .bg ++ [.call (.genuine message)])).app = .locking (.genuine message) ∧
        (s0.run P prof (List.replicate before .bg ++ [.call (.genuine message)])).returned = [] := by
      rw [happ]
      have hb := bg_keeps (P := P) (prof := prof) before s0
      rw [h0.returned, h0.app] at hb
      generalize s0.run P prof (List.replicate before .bg) = t at hb
      simp only [ShapedSys.run, List.foldl_cons, List.foldl_nil, ShapedSys.step, hb.2, hb.1]
      exact ⟨trivial, trivial⟩
    obtain ⟨m, n, r, hret⟩ := C51_no_deadlock (P := P) (prof := prof) h0
      (List.replicate before .bg ++ [.call (.genuine message)]) (p := .genuine message) (by rw [hcall.1]; rfl)
    rw [hcall.2] at hret
    generalize hL : List.replicate before SysLabel.bg ++ [.call (.genuine message)] ++ List.replicate m .bg = L at hret
    have hL0 : (s0.run P prof L).returned = [] := by
      rw [← hL, happ, (bg_keeps m _).1, hcall.2]
    -- the first step that returns
    have hstep : ∃ j, (s0.run P prof (L ++ List.replicate j .app)).returned = [] ∧
        (s0.run P prof (L ++ List.replicate (j + 1) .app)).returned ≠ [] := by
      by_contra hno
      have : ∀ j, (s0.run P prof (L ++ List.replicate j .app)).returned = [] := by
        intro j
        induction j with
        | zero => simpa using hL0
        | succ j ih =>
          by_contra hne
          exact hno ⟨j, ih, hne⟩
      rw [this n] at hret
      exact absurd hret (by simp)
    obtain ⟨j, j1, j2⟩ := hstep
    rw [List.replicate_succ', ← List.append_assoc, happ _ [.app]] at j2
    refine ⟨List.replicate m .bg ++ List.replicate j .app, ?_⟩
    simp only [List.map_append, List.map_replicate]
    have hLj : List.replicate before SysLabel.bg ++ SysLabel.call (.genuine message) :: (List.replicate m .bg ++ List.replicate j .app) =
        L ++ List.replicate j .app := by rw [← hL]; simp
    rw [hLj]
    generalize s0.run P prof (L ++ List.replicate j .app) = t at j1 j2
    obtain ⟨y, hy⟩ := (app_returns_one (P := P) (prof := prof) t).resolve_left (by rw [j1]; exact j2)
    rw [j1, List.nil_append] at hy
    rw [j1, hy]
    obtain ⟨q, z⟩ := y
    cases z with
    | panic => exact ⟨_, rfl⟩
    | err e => exact ⟨_, rfl⟩
    | ok u =>
      simp only
      split
      · exact ⟨_, rfl⟩
      · exact ⟨_, rfl⟩
      · split <;> exact ⟨_, rfl⟩

/-- C100: and if the peer uses the shaped protocol with random padding, then whatever it answers, the program prints between 1 and 1024
zero bytes. -/
theorem C100_padded (hP : Lawful P) {magic : Bytes} {I R : Peer} (H : Honest P prof magic I R)
    (hn : (R.decoys.getD []).length + 3 < 2 ^ 32) {w : Sink} (hw : w.Reliable true) {src tail : Source}
    {k : ErrorKind} {more : Bytes} (hend : EndsWith true tail k) (hs : Streams false src (flight P magic I R .initiator ++ more) tail) :
    ∃ p, SyncProtocol.new P prof magic .responder R.rng R.garbage R.decoys src w = .ok p ∧
      ∀ {G : Rng} {ws ws' : WriterState G} {answer : Payload}, ws.writer = p.writer → ws.shaper.config.padding = .random →
        (∀ c, answer.contents = some c → c.length ≤ 4000013) → ws.write .sync P prof answer = (ws', .ok ()) →
        ∀ all, ws'.writer.writer.out = w.out ++ all →
        ∀ {src' tail' : Source} {k' : ErrorKind} {w' : Sink}, EndsWith true tail' k' → w'.Reliable true → Streams false src' all tail' →
        ∀ (G : Rng) (gen : G.State) (sh : Shaper G) (rec : List Nat),
          Shaper.handshake (R := G) ⟨⟨.random, .random⟩, gen⟩ = (sh, I.garbage, I.decoys, rec) →
        ∀ (message : Bytes) (before : Nat) (during : List Tid) (after : Nat), message.length ≤ 4000013 →
          before + during.length + 6 < 2 ^ 32 → ∀ x,
          shapedStart (G := G) P prof magic I.rng message gen before during after src' w' = some x →
          ∃ sent n, 1 ≤ n ∧ n ≤ 1024 ∧ x = .ok (sent, zeros n) := by
  obtain ⟨p, h1, h2⟩ := (C100_prints hP H).sync .responder w src tail k more hw hend hs
  refine ⟨p, h1, ?_⟩
  intro G ws ws' answer hws hpad hlen hwrite all hall src' tail' k' w' hend' hw' hs' G' gen sh rec hsh message before during after hm hc x hx
  obtain ⟨n, w0, n1, n2, e1, e2⟩ := C58_pair_partial hpad hwrite
  rw [hws] at e1
  have hmany : p.writer.writeMany .sync P prof [.decoy (zeros n), answer] = (ws'.writer, [.ok (), .ok ()]) := by
    simp only [Writer.writeMany, e1, e2]
  have hz : ∀ q ∈ [Payload.decoy (zeros n), answer], ∀ c, q.contents = some c → c.length ≤ 4000013 := by
    intro q hq c hc
    rcases List.mem_cons.1 hq with rfl | hq
    · rw [show (Payload.decoy (zeros n)).contents = some (zeros n) from rfl, Option.some.injEq] at hc
      rw [← hc, zeros_length]; omega
    · rw [List.mem_singleton.1 hq] at hc
      exact hlen c hc
  obtain ⟨sent, -, hx', -⟩ := h2 _ _ _ hmany (by simp) hz all hall rfl (by simpa [Role.of] using hn) _ _ rfl hend' hw' hs' G' gen sh rec hsh
    message before during after hm hc x hx
  exact ⟨_, n, n1, n2, hx'⟩

/-- C100 with the cryptography of the RFCs, BIP-324 and secp256k1. -/
theorem C100_real (enc : Bytes → Bytes) (henc : ∀ sk, (enc sk).length = 64) {magic : Bytes} {I R : Peer}
    (H : Honest (rfc (secpWith enc)) prof magic I R) :
    AllSenders (rfc (secpWith enc)) prof magic I R fun role all ms => role = .responder →
      ((role.of I R).decoys.getD []).length + ms.length + 1 < 2 ^ 32 → ∀ m more, ms = m :: more →
      ∀ {src tail : Source} {k : ErrorKind} {w : Sink}, EndsWith true tail k → w.Reliable true → Streams false src all tail →
      ∀ (G : Rng) (gen : G.State) (sh : Shaper G) (rec : List Nat),
        Shaper.handshake (R := G) ⟨⟨.random, .random⟩, gen⟩ = (sh, I.garbage, I.decoys, rec) →
      ∀ (message : Bytes) (before : Nat) (during : List Tid) (after : Nat), message.length ≤ 4000013 →
        before + during.length + 6 < 2 ^ 32 → ∀ x,
        shapedStart (G := G) (rfc (secpWith enc)) prof magic I.rng message gen before during after src w = some x →
        ∃ sent shuffled, x = .ok (w.out ++ sent, (headed m).2) ∧ Shaped [.genuine message] shuffled ∧
          Conveys (rfc (secpWith enc)) prof magic .responder R sent (shuffled.map (·.2)) :=
  C100_prints (C53_real_lawful enc henc) H

/-- The initiator of `real_pair` has the garbage and the decoys of a shaper with this configuration. -/
example : ∃ sh rec, Shaper.handshake (R := listRng) ⟨⟨.random, .random⟩, [2, 42, 1, 3, 7]⟩ = (sh, some [42, 42], some [[7, 7, 7]], rec) :=
  ⟨_, _, rfl⟩

example := C100_real (prof := .release) ellswiftOf (fun _ => ellswiftEncode_length _) (magic := [0xF9, 0xBE, 0xB4, 0xD9]) real_pair

/-- What the example sends and prints, the number of bytes, when the peer answers `[1, 2, 3]`, without and with padding (of 9 bytes). -/
def shapedStartExample (padding : PaddingStrategy) (during : List Tid) : Option (Nat × Bytes) :=
  let own := Spec.madeUp toy [1, 2, 3, 4] (leBytes 32 99) false (toy.ellswift (leBytes 32 77)) [42, 42] [[7, 7, 7]] []
  match SyncProtocol.new toy .debug [1, 2, 3, 4] .responder (leBytes 32 99) none none [.data own] ⟨[], [], []⟩ with
  | .ok p =>
    match WriterState.write (R := listRng) .sync toy .debug ⟨p.writer, ⟨⟨padding, .disabled⟩, [9]⟩, []⟩ (.genuine [1, 2, 3]) with
    | (ws, .ok ()) =>
      match shapedStart (G := listRng) toy .debug [1, 2, 3, 4] (leBytes 32 77) [104, 105] [2, 42, 1, 3, 7, 4] 1 during 1
          [.data ws.writer.writer.out] ⟨[], [], []⟩ with
      | some (.ok (sent, n)) => some (sent.length - own.length, n)
      | _ => none
    | _ => none
  | _ => none

/-- The application alone, the decoy thread finding the lock taken, and the decoy thread being first: 46 bytes are the padding and the
message. -/
example : shapedStartExample .disabled (List.replicate 12 .app) = some (46, [1, 2, 3]) ∧
    shapedStartExample .random (List.replicate 12 .app) = some (46, zeros 9) ∧
    shapedStartExample .random (.bg :: .app :: .bg :: List.replicate 11 .app) = some (46, zeros 9) ∧
    shapedStartExample .random [.app] = none := by decide +kernel

end Bip324
