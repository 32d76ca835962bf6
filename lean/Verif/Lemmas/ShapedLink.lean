import Verif.Spec.ShapedLink
import Verif.Lemmas.Link
import Verif.Lemmas.TrafficSync

/-!
# One direction between two shaped parties
-/

namespace Bip324

variable {P : Prims} {prof : Profile} {R : Rng}

/-! ## A call of `write` of the plain protocol, and a job of the shaped one -/

/-- What is encrypted and not sent. -/
def WProc.rest : WProc → Bytes
  | .sending bs => bs
  | _ => []

/-- Nothing has gone wrong; `K`: what will be written. -/
def WProc.Set (K : Payload → Prop) : WProc → Prop
  | .start q => K q ∧ q.Readable
  | .done r => r = .ok ()
  | _ => True

def WProc.cost : WProc → Nat
  | .start q => (q.contents.getD []).length + 24
  | .sending bs => bs.length + 3
  | .flushing => 2
  | .done _ => 1

def JobPc.rest : JobPc → Bytes
  | .padding w _ => w.rest
  | .payload w => w.rest
  | .cover w => w.rest
  | _ => []

/-- How many packets are still to be encrypted, at most. -/
def WProc.packets : WProc → Nat
  | .start _ => 1
  | _ => 0

def JobPc.packets : JobPc → Nat
  | .start (.write _) => 2
  | .start .cover => 1
  | .padding w _ => w.packets + 1
  | .payload w => w.packets
  | .cover w => w.packets
  | .done _ => 0

def Payload.IsDecoy (p : Payload) : Prop := p.packetType = some .decoy

def JobPc.Set (job : Job) : JobPc → Prop
  | .start j => j = job
  | .padding w q => job = .write q ∧ w.Set Payload.IsDecoy
  | .payload w => ∃ p, job = .write p ∧ w.Set (· = p)
  | .cover w => job = .cover ∧ w.Set Payload.IsDecoy
  | .done r => r = .ok ()

/-- The payload of the application, once it is encrypted. -/
def JobPc.begun (job : Job) : JobPc → List Payload
  | .payload (.start _) => []
  | .payload _ | .done _ => match job with | .write p => [p] | .cover => []
  | _ => []

def Job.cost : Job → Nat
  | .write p => (p.contents.getD []).length + 2000
  | .cover => 2000

def JobPc.cost : JobPc → Nat
  | .start j => j.cost
  | .padding w q => w.cost + (q.contents.getD []).length + 100
  | .payload w => w.cost + 2
  | .cover w => w.cost + 2
  | .done _ => 1

def Job.Readable : Job → Prop
  | .write p => p.Readable
  | .cover => True

theorem genuineOf_append (a b : List Payload) : genuineOf (a ++ b) = genuineOf a ++ genuineOf b := by simp [genuineOf]

theorem genuineOf_decoy {p : Payload} (h : p.IsDecoy) : genuineOf [p] = [] := by
  unfold Payload.IsDecoy at h
  simp [genuineOf, h]

theorem genuineOf_received {p : Payload} (h : p.Readable) : genuineOf [p.received] = genuineOf [p] := by
  obtain ⟨t, c, ht, hc, -⟩ := h
  have hr : p.received = .decrypted (t.toByte :: c) := by simp [Payload.received, ht, hc]
  have h2 : (Payload.decrypted (t.toByte :: c)).packetType = some t := by cases t <;> rfl
  have h3 : (Payload.decrypted (t.toByte :: c)).contents = some c := rfl
  simp only [genuineOf, hr, List.filterMap_cons, List.filterMap_nil, h2, h3, ht, hc]

theorem genuineOf_map_received {ps : List Payload} (h : ∀ p ∈ ps, p.Readable) :
    genuineOf (ps.map Payload.received) = genuineOf ps := by
  induction ps with
  | nil => rfl
  | cons p ps ih =>
    rw [List.map_cons, ← List.singleton_append, genuineOf_append, genuineOf_received (h p (by simp)), ih fun q hq => h q (by simp [hq]),
      ← genuineOf_append]
    rfl

theorem readable_decoy {size : Nat} (h : size ≤ 1024) : (Payload.decoy (zeros size)).Readable ∧ (Payload.decoy (zeros size)).IsDecoy ∧
    ((Payload.decoy (zeros size)).contents.getD []).length ≤ 1024 := by
  have hl : (zeros size).length = size := by simp [zeros]
  refine ⟨⟨.decoy, zeros size, ?_, rfl, by rw [hl]; omega⟩, ?_, ?_⟩
  · simp [Payload.decoy, Payload.packetType, PacketType.toByte, PacketType.fromByte]
  · simp [Payload.IsDecoy, Payload.decoy, Payload.packetType, PacketType.toByte, PacketType.fromByte]
  · show (zeros size).length ≤ 1024
    omega

/-- One step of a plain `write`: the channel is full, or it goes on. -/
theorem wproc_step (hP : Lawful P) {kL kP : Bytes} {m : Nat} {cipher : OutboundCipher} (ho : cipher.At P kL kP m) (hm : m + 1 < 2 ^ 32)
    {K : Payload → Prop} {pc : WProc} (hg : pc.Set K) (hnd : ∀ r, pc ≠ .done r) (run : ConnRun (Bytes × Bytes)) (cap k : Nat) :
    ((∀ k, (endConn cap k).ask pc.asks run = none) ∧ cap ≤ run.net.1.length ∧ ∃ b bs, pc = .sending (b :: bs)) ∨
    ∃ run' sink w' pc' new, (endConn cap k).ask pc.asks run = some (run', sink) ∧
      pc.step .sync P prof ⟨cipher, sink⟩ = (w', pc') ∧ w'.cipher.At P kL kP (m + new.length) ∧
      ((new = [] ∧ ∀ q, pc ≠ .start q) ∨ ∃ q, new = [q] ∧ pc = .start q) ∧ (∀ q ∈ new, K q ∧ q.Readable) ∧ pc'.Set K ∧
      (∀ q, pc' ≠ .start q) ∧ run'.net.2 = run.net.2 ∧
      run'.net.1 ++ pc'.rest = run.net.1 ++ pc.rest ++ payloadStream P kL kP m new ∧ pc'.cost < pc.cost := by
  cases pc with
  | start q =>
    obtain ⟨hK, ⟨t, c, ht, hc, hlen⟩⟩ := hg
    obtain ⟨o', ho', he⟩ := ho.encryptToVec (prof := prof) hP hm c t none
    have hw := packet_len20 hP ho hm t c
    right
    refine ⟨run, ⟨[], [], []⟩, ⟨o', ⟨[], [], []⟩⟩, .sending (Spec.packet P kL kP m (t == .decoy) [] c), [q], rfl, ?_, ho',
      .inr ⟨q, rfl, rfl⟩, ?_, trivial, by simp, rfl, ?_, ?_⟩
    · simp only [WProc.step, ht, hc, he, Option.getD_none]
    · intro q' hq'
      rw [List.mem_singleton] at hq'
      subst hq'
      exact ⟨hK, t, c, ht, hc, hlen⟩
    · simp [WProc.rest, payloadStream, ht, hc]
    · simp only [WProc.cost, hw, hc, Option.getD_some]; omega
  | sending bs =>
    cases bs with
    | nil =>
      right
      exact ⟨run, ⟨[], [], []⟩, ⟨cipher, ⟨[], [], []⟩⟩, .flushing, [], rfl, rfl, ho, .inl ⟨rfl, by simp⟩, by simp, trivial, by simp, rfl,
        by simp [WProc.rest, payloadStream], by simp [WProc.cost]⟩
    | cons b bs =>
      by_cases hfull : cap ≤ run.net.1.length
      · left
        refine ⟨fun k => ?_, hfull, b, bs, rfl⟩
        simp only [WProc.asks, Conn.ask, Conn.writeRun, endConn, if_pos hfull, reduceCtorEq, if_false]
      · right
        obtain ⟨x, hx⟩ : ∃ x, x + 1 = min (k + 1) (min (cap - run.net.1.length) (b :: bs).length) := by
          refine ⟨min (k + 1) (min (cap - run.net.1.length) (b :: bs).length) - 1, ?_⟩
          rw [List.length_cons]; omega
        refine ⟨⟨(run.net.1 ++ (b :: bs).take (x + 1), run.net.2), run.answers, run.sent ++ (b :: bs).take (x + 1)⟩,
          ⟨[.accept (x + 1)], [], []⟩, ⟨cipher, ⟨[], [], (b :: bs).take (x + 1)⟩⟩, .sending ((b :: bs).drop (x + 1)), [], ?_, ?_, ho,
          .inl ⟨rfl, by simp⟩, by simp, trivial, by simp, rfl, ?_, ?_⟩
        · simp only [WProc.asks, Conn.ask, Conn.writeRun, endConn, if_neg hfull, reduceCtorEq, if_false, ← hx]
        · simp only [WProc.step, List.nil_append]
        · simp only [WProc.rest, payloadStream, List.append_assoc, List.append_nil]
          rw [List.take_append_drop]
        · simp only [WProc.cost, List.length_drop, List.length_cons]; omega
  | flushing =>
    right
    exact ⟨run, ⟨[], [none], []⟩, ⟨cipher, ⟨[], [], []⟩⟩, .done (.ok ()), [], rfl, rfl, ho, .inl ⟨rfl, by simp⟩, by simp, rfl, by simp, rfl,
        by simp [WProc.rest, payloadStream], by simp [WProc.cost]⟩
  | done r => exact absurd rfl (hnd r)

theorem Shaper.decoy_random {s : Shaper R} (h : s.config.decoy = .random) :
    s.decoy = if (R.range s.rng 0 99).2 < 85 then (⟨s.config, (R.range s.rng 0 99).1⟩, none, [])
      else (⟨s.config, (R.range (R.range s.rng 0 99).1 1 MAX_DECOY_SIZE_BYTES).1⟩,
        some (.decoy (zeros (R.range (R.range s.rng 0 99).1 1 MAX_DECOY_SIZE_BYTES).2)),
        [(R.range (R.range s.rng 0 99).1 1 MAX_DECOY_SIZE_BYTES).2]) := by
  unfold Shaper.decoy
  rw [h]

theorem wpackets {w w' : WProc} {new : List Payload} (h : (new = [] ∧ ∀ q, w ≠ .start q) ∨ ∃ q, new = [q] ∧ w = .start q)
    (h' : ∀ q, w' ≠ .start q) : new.length + w'.packets = w.packets := by
  have e : w'.packets = 0 := by
    cases w' with
    | start q => exact absurd rfl (h' q)
    | _ => rfl
  rw [e]
  rcases h with ⟨rfl, h⟩ | ⟨q, rfl, rfl⟩
  · cases w with
    | start q => exact absurd rfl (h q)
    | _ => rfl
  · rfl

/-- One step of a job. -/
theorem job_step (hP : Lawful P) {kL kP : Bytes} {m : Nat} {ws : WriterState R} (ho : ws.writer.cipher.At P kL kP m) (hm : m + 1 < 2 ^ 32)
    {job : Job} {pc : JobPc} (hj : job.Readable) (hg : pc.Set job) (hnd : ∀ r, pc ≠ .done r) (run : ConnRun (Bytes × Bytes)) (cap k : Nat) :
    ((∀ k, (endConn cap k).ask pc.asks run = none) ∧ cap ≤ run.net.1.length ∧ pc.rest ≠ []) ∨
    ∃ run' sink ws' pc' new, (endConn cap k).ask pc.asks run = some (run', sink) ∧
      pc.step .sync P prof (ws.over sink) = (ws', pc') ∧ ws'.writer.cipher.At P kL kP (m + new.length) ∧ new.length ≤ 1 ∧
      (∀ q ∈ new, q.Readable) ∧ pc'.Set job ∧ genuineOf (pc.begun job) ++ genuineOf new = genuineOf (pc'.begun job) ∧
      run'.net.2 = run.net.2 ∧ run'.net.1 ++ pc'.rest = run.net.1 ++ pc.rest ++ payloadStream P kL kP m new ∧ pc'.cost < pc.cost ∧
      new.length + pc'.packets ≤ pc.packets ∧ ((∀ j, pc ≠ .start j) → new.length + pc'.packets = pc.packets) ∧
      ws'.shaper.config = ws.shaper.config := by
  have hw0 : ∀ sink, (ws.over sink).writer = ⟨ws.writer.cipher, sink⟩ := fun _ => rfl
  cases pc with
  | start j =>
    have hg : j = job := hg
    subst hg
    right
    cases j with
    | write p =>
      obtain ⟨t, c, ht, hc, hlen⟩ := hj
      cases hpad : ws.shaper.config.padding with
      | disabled =>
        refine ⟨run, ⟨[], [], []⟩, { ws.over ⟨[], [], []⟩ with recorded := ws.recorded ++ [c.length] }, .payload (.start p), [], rfl, ?_, ho,
          by simp, by simp, ⟨p, rfl, rfl, t, c, ht, hc, hlen⟩, by simp [JobPc.begun, genuineOf], rfl,
          by simp [JobPc.rest, WProc.rest, payloadStream], by simp [JobPc.cost, Job.cost, WProc.cost],
          by simp [JobPc.packets, WProc.packets], fun h => absurd rfl (h _), rfl⟩
        simp only [JobPc.step, Shaper.pad, WriterState.over, hc, hpad]
      | random =>
        obtain ⟨r1, r2⟩ := R.range_mem ws.shaper.rng 1 MAX_DECOY_SIZE_BYTES (by decide)
        obtain ⟨d1, d2, d3⟩ := readable_decoy r2
        refine ⟨run, ⟨[], [], []⟩,
          { ws.over ⟨[], [], []⟩ with shaper := ⟨ws.shaper.config, (R.range ws.shaper.rng 1 MAX_DECOY_SIZE_BYTES).1⟩, recorded := ws.recorded ++ [c.length, (R.range ws.shaper.rng 1 MAX_DECOY_SIZE_BYTES).2] },
          .padding (.start (.decoy (zeros (R.range ws.shaper.rng 1 MAX_DECOY_SIZE_BYTES).2))) p, [], rfl, ?_, ho, by simp, by simp,
          ⟨rfl, d2, d1⟩, by simp [JobPc.begun, genuineOf], rfl, by simp [JobPc.rest, WProc.rest, payloadStream], ?_,
          by simp [JobPc.packets, WProc.packets], fun h => absurd rfl (h _), rfl⟩
        · simp only [JobPc.step, Shaper.pad, WriterState.over, hc, hpad]
        · simp only [JobPc.cost, Job.cost, WProc.cost]; omega
    | cover =>
      cases hdec : ws.shaper.config.decoy with
      | disabled =>
        refine ⟨run, ⟨[], [], []⟩, { ws.over ⟨[], [], []⟩ with recorded := ws.recorded ++ [] }, .done (.ok ()), [], rfl, ?_, ho,
          by simp, by simp, rfl, by simp [JobPc.begun, genuineOf], rfl,
          by simp [JobPc.rest, payloadStream], by simp [JobPc.cost, Job.cost],
          by simp [JobPc.packets], fun h => absurd rfl (h _), rfl⟩
        simp only [JobPc.step, Shaper.decoy, WriterState.over, hdec]
      | random =>
        by_cases hroll : (R.range ws.shaper.rng 0 99).2 < 85
        · refine ⟨run, ⟨[], [], []⟩,
            { ws.over ⟨[], [], []⟩ with shaper := ⟨ws.shaper.config, (R.range ws.shaper.rng 0 99).1⟩, recorded := ws.recorded ++ [] },
            .done (.ok ()), [], rfl, ?_, ho, by simp, by simp, rfl, by simp [JobPc.begun, genuineOf], rfl,
            by simp [JobPc.rest, payloadStream], by simp [JobPc.cost, Job.cost],
          by simp [JobPc.packets], fun h => absurd rfl (h _), rfl⟩
          simp only [JobPc.step, WriterState.over, Shaper.decoy_random hdec]
          rw [if_pos hroll]
        · obtain ⟨r1, r2⟩ := R.range_mem (R.range ws.shaper.rng 0 99).1 1 MAX_DECOY_SIZE_BYTES (by decide)
          obtain ⟨d1, d2, d3⟩ := readable_decoy r2
          refine ⟨run, ⟨[], [], []⟩,
            { ws.over ⟨[], [], []⟩ with
              shaper := ⟨ws.shaper.config, (R.range (R.range ws.shaper.rng 0 99).1 1 MAX_DECOY_SIZE_BYTES).1⟩,
              recorded := ws.recorded ++ [(R.range (R.range ws.shaper.rng 0 99).1 1 MAX_DECOY_SIZE_BYTES).2] },
            .cover (.start (.decoy (zeros (R.range (R.range ws.shaper.rng 0 99).1 1 MAX_DECOY_SIZE_BYTES).2))), [], rfl, ?_, ho, by simp, by simp,
            ⟨rfl, d2, d1⟩, by simp [JobPc.begun, genuineOf], rfl, by simp [JobPc.rest, WProc.rest, payloadStream], ?_,
          by simp [JobPc.packets, WProc.packets], fun h => absurd rfl (h _), rfl⟩
          · simp only [JobPc.step, WriterState.over, Shaper.decoy_random hdec]
            rw [if_neg hroll]
          · simp only [JobPc.cost, Job.cost, WProc.cost]; omega
  | padding w p =>
    obtain ⟨rfl, hg⟩ := hg
    by_cases hd : ∃ r, w = .done r
    · obtain ⟨r, rfl⟩ := hd
      have hg : r = .ok () := hg
      subst hg
      right
      exact ⟨run, ⟨[], [], []⟩, ws.over ⟨[], [], []⟩, .payload (.start p), [], rfl, rfl, ho, by simp, by simp, ⟨p, rfl, rfl, hj⟩,
        by simp [JobPc.begun, genuineOf], rfl, by simp [JobPc.rest, WProc.rest, payloadStream], by simp [JobPc.cost, WProc.cost]; omega,
        by simp [JobPc.packets, WProc.packets], fun _ => by simp [JobPc.packets, WProc.packets], rfl⟩
    · have hnd' : ∀ r, w ≠ .done r := fun r h => hd ⟨r, h⟩
      rcases wproc_step (prof := prof) hP ho hm hg hnd' run cap k with ⟨g1, g2, b, bs, rfl⟩ |
        ⟨run', sink, w', pc', new, g1, g2, g3, g4, g5, g6, g7, g8, g9, g10⟩
      · left
        exact ⟨g1, g2, by simp [JobPc.rest, WProc.rest]⟩
      · right
        refine ⟨run', sink, { ws.over sink with writer := w' }, .padding pc' p, new, g1, ?_, g3, ?_, fun q hq => (g5 q hq).2, ⟨rfl, g6⟩, ?_, g8, g9, ?_, ?_, fun _ => ?_, rfl⟩
        · cases w with
          | done r => exact absurd rfl (hnd' r)
          | _ => simp only [JobPc.step, hw0, g2]
        · rcases g4 with ⟨rfl, -⟩ | ⟨q, rfl, -⟩ <;> simp
        · rcases g4 with ⟨rfl, -⟩ | ⟨q, rfl, -⟩
          · simp [JobPc.begun, genuineOf]
          · rw [genuineOf_decoy (g5 q (by simp)).1]; simp [JobPc.begun, genuineOf]
        · simp only [JobPc.cost]; omega
        · simp only [JobPc.packets]; have := wpackets g4 g7; omega
        · simp only [JobPc.packets]; have := wpackets g4 g7; omega
  | payload w =>
    obtain ⟨p, rfl, hg⟩ := hg
    by_cases hd : ∃ r, w = .done r
    · obtain ⟨r, rfl⟩ := hd
      have hg : r = .ok () := hg
      subst hg
      right
      exact ⟨run, ⟨[], [], []⟩, ws.over ⟨[], [], []⟩, .done (.ok ()), [], rfl, rfl, ho, by simp, by simp, rfl,
        by simp [JobPc.begun, genuineOf], rfl, by simp [JobPc.rest, WProc.rest, payloadStream], by simp [JobPc.cost, WProc.cost],
        by simp [JobPc.packets, WProc.packets], fun _ => by simp [JobPc.packets, WProc.packets], rfl⟩
    · have hnd' : ∀ r, w ≠ .done r := fun r h => hd ⟨r, h⟩
      rcases wproc_step (prof := prof) hP ho hm hg hnd' run cap k with ⟨g1, g2, b, bs, rfl⟩ |
        ⟨run', sink, w', pc', new, g1, g2, g3, g4, g5, g6, g7, g8, g9, g10⟩
      · left
        exact ⟨g1, g2, by simp [JobPc.rest, WProc.rest]⟩
      · right
        refine ⟨run', sink, { ws.over sink with writer := w' }, .payload pc', new, g1, ?_, g3, ?_, fun q hq => (g5 q hq).2, ⟨p, rfl, g6⟩, ?_, g8, g9, ?_, ?_, fun _ => ?_, rfl⟩
        · cases w with
          | done r => exact absurd rfl (hnd' r)
          | _ => simp only [JobPc.step, hw0, g2]
        · rcases g4 with ⟨rfl, -⟩ | ⟨q, rfl, -⟩ <;> simp
        · have hb : JobPc.begun (.write p) (.payload pc') = [p] := by
            cases pc' with
            | start q => exact absurd rfl (g7 q)
            | _ => rfl
          rw [hb]
          rcases g4 with ⟨rfl, h⟩ | ⟨q, rfl, rfl⟩
          · cases w with
            | start q => exact absurd rfl (h q)
            | _ => simp [JobPc.begun, genuineOf]
          · obtain ⟨rfl, -⟩ := g5 q (by simp)
            simp [JobPc.begun, genuineOf]
        · simp only [JobPc.cost]; omega
        · simp only [JobPc.packets]; have := wpackets g4 g7; omega
        · simp only [JobPc.packets]; have := wpackets g4 g7; omega
  | cover w =>
    obtain ⟨rfl, hg⟩ := hg
    by_cases hd : ∃ r, w = .done r
    · obtain ⟨r, rfl⟩ := hd
      have hg : r = .ok () := hg
      subst hg
      right
      exact ⟨run, ⟨[], [], []⟩, ws.over ⟨[], [], []⟩, .done (.ok ()), [], rfl, rfl, ho, by simp, by simp, rfl,
        by simp [JobPc.begun, genuineOf], rfl, by simp [JobPc.rest, WProc.rest, payloadStream], by simp [JobPc.cost, WProc.cost],
        by simp [JobPc.packets, WProc.packets], fun _ => by simp [JobPc.packets, WProc.packets], rfl⟩
    · have hnd' : ∀ r, w ≠ .done r := fun r h => hd ⟨r, h⟩
      rcases wproc_step (prof := prof) hP ho hm hg hnd' run cap k with ⟨g1, g2, b, bs, rfl⟩ |
        ⟨run', sink, w', pc', new, g1, g2, g3, g4, g5, g6, g7, g8, g9, g10⟩
      · left
        exact ⟨g1, g2, by simp [JobPc.rest, WProc.rest]⟩
      · right
        refine ⟨run', sink, { ws.over sink with writer := w' }, .cover pc', new, g1, ?_, g3, ?_, fun q hq => (g5 q hq).2, ⟨rfl, g6⟩, ?_, g8, g9, ?_, ?_, fun _ => ?_, rfl⟩
        · cases w with
          | done r => exact absurd rfl (hnd' r)
          | _ => simp only [JobPc.step, hw0, g2]
        · rcases g4 with ⟨rfl, -⟩ | ⟨q, rfl, -⟩ <;> simp
        · rcases g4 with ⟨rfl, -⟩ | ⟨q, rfl, -⟩
          · simp [JobPc.begun, genuineOf]
          · rw [genuineOf_decoy (g5 q (by simp)).1]; simp [JobPc.begun, genuineOf]
        · simp only [JobPc.cost]; omega
        · simp only [JobPc.packets]; have := wpackets g4 g7; omega
        · simp only [JobPc.packets]; have := wpackets g4 g7; omega
  | done r => exact absurd rfl (hnd r)

/-! ## The side that writes -/

variable {σ : Type}

/-- A step of the application in its critical section. -/
theorem app_step {N : Conn σ} {s : ShapedN σ R} {p : Payload} {pc : JobPc} (h : s.sys.app = .writing p pc) (hnd : ∀ r, pc ≠ .done r) :
    s.step N P prof (.sys .app) = match N.ask pc.asks s.run with
      | none => s
      | some (r, sink) => { s with
          sys := { s.sys with ws := (pc.step .sync P prof (s.sys.ws.over sink)).1,
                              app := .writing p (pc.step .sync P prof (s.sys.ws.over sink)).2 }, run := r } := by
  obtain ⟨⟨ws, owner, poisoned, shutdown, app, bg, reader, called, returned, reads0⟩, half, run⟩ := s
  simp only at h
  subst h
  simp only [ShapedN.step, ShapedSys.asks]
  cases N.ask pc.asks run with
  | none => rfl
  | some x =>
    obtain ⟨r, sink⟩ := x
    simp only [ShapedSys.step, ShapedSys.appStep]

/-- A step of the decoy thread in its critical section. -/
theorem bg_step {N : Conn σ} {s : ShapedN σ R} {pc : JobPc} (h : s.sys.bg = .covering pc) (hnd : ∀ r, pc ≠ .done r) :
    s.step N P prof (.sys .bg) = match N.ask pc.asks s.run with
      | none => s
      | some (r, sink) => { s with
          sys := { s.sys with ws := (pc.step .sync P prof (s.sys.ws.over sink)).1,
                              bg := .covering (pc.step .sync P prof (s.sys.ws.over sink)).2 }, run := r } := by
  obtain ⟨⟨ws, owner, poisoned, shutdown, app, bg, reader, called, returned, reads0⟩, half, run⟩ := s
  simp only at h
  subst h
  simp only [ShapedN.step, ShapedSys.asks]
  cases N.ask pc.asks run with
  | none => rfl
  | some x =>
    obtain ⟨r, sink⟩ := x
    simp only [ShapedSys.step, ShapedSys.bgStep]

theorem begun_cover (pc : JobPc) : pc.begun .cover = [] := by
  cases pc with
  | payload w => cases w <;> rfl
  | _ => rfl

/-- The writer has written the packets of `log`, the last of which has `rest` left to send, and is at number `m`. -/
def SenderAt (P : Prims) (kL kP : Bytes) (m : Nat) (log : List Payload) (s : ShapedSys R) (rest : Bytes) : Prop :=
  s.ws.writer.cipher.At P kL kP m ∧ s.poisoned = false ∧ (∀ x ∈ s.returned, x.2 = .ok ()) ∧
  s.called = s.returned.map (·.1) ++ s.app.inflight ∧ (∀ p ∈ s.called, p.Readable) ∧
  (s.bg ≠ .panicked ∧ (s.app = .joining → s.shutdown = true)) ∧
  match s.owner with
  | none => s.app.free ∧ s.bg.free ∧ rest = [] ∧ genuineOf log = genuineOf (s.returned.map (·.1))
  | some .app => ∃ p pc, s.app = .writing p pc ∧ s.bg.free ∧ pc.Set (.write p) ∧ rest = pc.rest ∧
      genuineOf log = genuineOf (s.returned.map (·.1)) ++ genuineOf (pc.begun (.write p))
  | some .bg => ∃ pc, s.bg = .covering pc ∧ s.app.free ∧ pc.Set .cover ∧ rest = pc.rest ∧
      genuineOf log = genuineOf (s.returned.map (·.1))

/-- The parts of a party that a step of its writing side leaves alone. -/
def SameReader (s s' : ShapedN (Bytes × Bytes) R) : Prop :=
  s'.half = s.half ∧ s'.sys.reads = s.sys.reads ∧ s'.sys.reader = s.sys.reader ∧ s'.run.net.2 = s.run.net.2

/-- What a step of the writing side does. -/
def SendsThese (P : Prims) (kL kP : Bytes) (m : Nat) (log : List Payload) (rest : Bytes) (s s' : ShapedN (Bytes × Bytes) R)
    (new : List Payload) (rest' : Bytes) : Prop :=
  new.length ≤ 1 ∧ (∀ q ∈ new, q.Readable) ∧ SenderAt P kL kP (m + new.length) (log ++ new) s'.sys rest' ∧ SameReader s s' ∧
    s'.run.net.1 ++ rest' = s.run.net.1 ++ rest ++ payloadStream P kL kP m new

/-- As above; if `c`, no packet is encrypted. -/
def Sends (P : Prims) (kL kP : Bytes) (m : Nat) (log : List Payload) (rest : Bytes) (s s' : ShapedN (Bytes × Bytes) R) (c : Prop) : Prop :=
  ∃ new rest', SendsThese P kL kP m log rest s s' new rest' ∧ (c → new = [] ∧ rest' = rest)

/-- The thread is not in the midst of a critical section. -/
def ShapedSys.Between (s : ShapedSys R) (l : SysLabel) : Prop :=
  (l = .app → ∀ p pc, s.app = .writing p pc → ∃ r, pc = .done r) ∧ (l = .bg → ∀ pc, s.bg = .covering pc → ∃ r, pc = .done r)

theorem Sends.quiet {c : Prop} {kL kP : Bytes} {m : Nat} {log : List Payload} {rest : Bytes} {s s' : ShapedN (Bytes × Bytes) R}
    (h : SenderAt P kL kP m log s'.sys rest) (h1 : SameReader s s') (h2 : s'.run = s.run) : Sends P kL kP m log rest s s' c :=
  ⟨[], rest, ⟨by simp, by simp, by simpa using h, h1, by simp [h2, payloadStream]⟩, fun _ => ⟨rfl, rfl⟩⟩

/-- The application in its critical section: blocked, or it goes on. -/
theorem app_goes (hP : Lawful P) {kL kP : Bytes} {m : Nat} {log : List Payload} {s : ShapedN (Bytes × Bytes) R} {rest : Bytes}
    (hm : m + 1 < 2 ^ 32) (h : SenderAt P kL kP m log s.sys rest) {p : Payload} {pc : JobPc} (ha : s.sys.app = .writing p pc)
    (hnd : ∀ r, pc ≠ .done r) (cap k : Nat) :
    ((∀ k, s.step (endConn cap k) P prof (.sys .app) = s) ∧ cap ≤ s.run.net.1.length ∧ rest ≠ []) ∨
    ∃ s' pc' new rest', s.step (endConn cap k) P prof (.sys .app) = s' ∧ SendsThese P kL kP m log rest s s' new rest' ∧ s'.sys.app = .writing p pc' ∧
      pc'.cost < pc.cost ∧ s'.sys.owner = s.sys.owner ∧ s'.sys.bg = s.sys.bg ∧ s'.sys.called = s.sys.called ∧
      s'.sys.returned = s.sys.returned ∧ s'.sys.shutdown = s.sys.shutdown ∧
      new.length + pc'.packets ≤ pc.packets ∧ ((∀ j, pc ≠ .start j) → new.length + pc'.packets = pc.packets) ∧
      s'.sys.ws.shaper.config = s.sys.ws.shaper.config := by
  obtain ⟨ho, h1, h2, h3, h4, h5, h6⟩ := h
  have hown : s.sys.owner = some .app := by
    cases hc : s.sys.owner with
    | none => rw [hc] at h6; have := h6.1; rw [ha] at this; exact this.elim
    | some t =>
      cases t with
      | app => rfl
      | bg => rw [hc] at h6; obtain ⟨pc', -, h, -⟩ := h6; rw [ha] at h; exact h.elim
  rw [hown] at h6
  obtain ⟨p', pc', ha', hb, hg, rfl, hlog⟩ := h6
  rw [ha] at ha'
  cases ha'
  have hr : p.Readable := h4 p (by rw [h3, ha]; simp [AppPc.inflight])
  rcases job_step (prof := prof) hP ho hm (job := .write p) hr hg hnd s.run cap k with ⟨g1, g2, g3⟩ |
    ⟨run', sink, ws', pc', new, g1, g2, g3, g4, g5, g6, g7, g8, g9, g10, g11, g12, g13⟩
  · left
    exact ⟨fun k => by rw [app_step ha hnd, g1], g2, g3⟩
  · right
    refine ⟨{ s with sys := { s.sys with ws := ws', app := .writing p pc' }, run := run' }, pc', new, pc'.rest, ?_, ?_, rfl, g10, rfl, rfl, rfl, rfl, rfl, g11, g12, g13⟩
    · rw [app_step ha hnd, g1]
      simp only [g2]
    · refine ⟨g4, g5, ⟨g3, h1, h2, ?_, h4, ⟨h5.1, fun h => (by cases h)⟩, ?_⟩, ⟨rfl, rfl, rfl, g8⟩, g9⟩
      · rw [h3, ha]; rfl
      · simp only [hown]
        exact ⟨p, pc', rfl, hb, g6, rfl, by rw [genuineOf_append, hlog, ← g7, List.append_assoc]⟩

/-- The decoy thread in its critical section: blocked, or it goes on. -/
theorem bg_goes (hP : Lawful P) {kL kP : Bytes} {m : Nat} {log : List Payload} {s : ShapedN (Bytes × Bytes) R} {rest : Bytes}
    (hm : m + 1 < 2 ^ 32) (h : SenderAt P kL kP m log s.sys rest) {pc : JobPc} (hb : s.sys.bg = .covering pc)
    (hnd : ∀ r, pc ≠ .done r) (cap k : Nat) :
    ((∀ k, s.step (endConn cap k) P prof (.sys .bg) = s) ∧ cap ≤ s.run.net.1.length ∧ rest ≠ []) ∨
    ∃ s' pc' new rest', s.step (endConn cap k) P prof (.sys .bg) = s' ∧ SendsThese P kL kP m log rest s s' new rest' ∧ s'.sys.bg = .covering pc' ∧
      pc'.cost < pc.cost ∧ s'.sys.owner = s.sys.owner ∧ s'.sys.app = s.sys.app ∧ s'.sys.called = s.sys.called ∧
      s'.sys.returned = s.sys.returned ∧ s'.sys.shutdown = s.sys.shutdown ∧
      new.length + pc'.packets ≤ pc.packets ∧ ((∀ j, pc ≠ .start j) → new.length + pc'.packets = pc.packets) ∧
      s'.sys.ws.shaper.config = s.sys.ws.shaper.config := by
  obtain ⟨ho, h1, h2, h3, h4, h5, h6⟩ := h
  have hown : s.sys.owner = some .bg := by
    cases hc : s.sys.owner with
    | none => rw [hc] at h6; have := h6.2.1; rw [hb] at this; exact this.elim
    | some t =>
      cases t with
      | bg => rfl
      | app => rw [hc] at h6; obtain ⟨p', pc', -, h, -⟩ := h6; rw [hb] at h; exact h.elim
  rw [hown] at h6
  obtain ⟨pc', hb', ha, hg, rfl, hlog⟩ := h6
  rw [hb] at hb'
  cases hb'
  rcases job_step (prof := prof) hP ho hm (job := .cover) trivial hg hnd s.run cap k with ⟨g1, g2, g3⟩ |
    ⟨run', sink, ws', pc', new, g1, g2, g3, g4, g5, g6, g7, g8, g9, g10, g11, g12, g13⟩
  · left
    exact ⟨fun k => by rw [bg_step hb hnd, g1], g2, g3⟩
  · right
    refine ⟨{ s with sys := { s.sys with ws := ws', bg := .covering pc' }, run := run' }, pc', new, pc'.rest, ?_, ?_, rfl, g10, rfl, rfl, rfl, rfl, rfl, g11, g12, g13⟩
    · rw [bg_step hb hnd, g1]
      simp only [g2]
    · refine ⟨g4, g5, ⟨g3, h1, h2, h3, h4, ⟨by simp, h5.2⟩, ?_⟩, ⟨rfl, rfl, rfl, g8⟩, g9⟩
      simp only [hown]
      refine ⟨pc', rfl, ha, g6, rfl, ?_⟩
      rw [begun_cover, begun_cover] at g7
      simp only [genuineOf, List.filterMap_nil, List.nil_append] at g7
      rw [genuineOf_append, hlog]
      simp [genuineOf, g7]

/-- A step that makes no call of the transport. -/
theorem silent_step {N : Conn σ} {s : ShapedN σ R} {l : SysLabel} (hl : l ≠ .read) (h : s.sys.asks l = none) :
    s.step N P prof (.sys l) = { s with sys := ({ s.sys with ws := s.sys.ws.over ⟨[], [], []⟩ } : ShapedSys R).step P prof l } := by
  cases l with
  | read => exact absurd rfl hl
  | _ => simp only [ShapedN.step, h, Conn.ask]

/-- Every step of the writing side. -/
theorem sender_step (hP : Lawful P) {kL kP : Bytes} {m : Nat} {log : List Payload} {s : ShapedN (Bytes × Bytes) R} {rest : Bytes}
    (hm : m + 1 < 2 ^ 32) (h : SenderAt P kL kP m log s.sys rest) {l : SysLabel} (hl : l ≠ .read) (hc : ∀ p, l = .call p → p.Readable)
    (cap k : Nat) : Sends P kL kP m log rest s (s.step (endConn cap k) P prof (.sys l)) (s.sys.Between l) := by
  have keep : ∀ x : Sink, SenderAt P kL kP m log ({ s.sys with ws := s.sys.ws.over x } : ShapedSys R) rest := fun _ => h
  cases l with
  | read => exact absurd rfl hl
  | call p =>
    rw [silent_step (by simp) rfl]
    refine .quiet ?_ ⟨rfl, ?_, ?_, rfl⟩ rfl
    · simp only [ShapedSys.step]
      obtain ⟨ho, h1, h2, h3, h4, h5, h6⟩ := h
      split
      · rename_i ha
        refine ⟨ho, h1, h2, ?_, ?_, ⟨h5.1, fun h => (by cases h)⟩, ?_⟩
        · simp only [h3, ha, AppPc.inflight, List.append_nil]
        · intro q hq
          simp only [List.mem_append, List.mem_singleton] at hq
          rcases hq with hq | rfl
          · exact h4 q hq
          · exact hc q rfl
        · simp only
          cases ho : s.sys.owner with
          | none => rw [ho] at h6; exact ⟨trivial, h6.2⟩
          | some t =>
            rw [ho] at h6
            cases t with
            | app => obtain ⟨p', pc, h, -⟩ := h6; rw [ha] at h; cases h
            | bg => obtain ⟨pc, h7, h8, h9⟩ := h6; exact ⟨pc, h7, trivial, h9⟩
      · exact ⟨ho, h1, h2, h3, h4, h5, h6⟩
    · simp only [ShapedSys.step]; split <;> rfl
    · simp only [ShapedSys.step]; split <;> rfl
  | drop =>
    rw [silent_step (by simp) rfl]
    refine .quiet ?_ ⟨rfl, ?_, ?_, rfl⟩ rfl
    · simp only [ShapedSys.step]
      obtain ⟨ho, h1, h2, h3, h4, h5, h6⟩ := h
      split
      · rename_i ha
        refine ⟨ho, h1, h2, ?_, h4, ⟨h5.1, fun _ => rfl⟩, ?_⟩
        · simp only [h3, ha, AppPc.inflight]
        · simp only
          cases ho : s.sys.owner with
          | none => rw [ho] at h6; exact ⟨trivial, h6.2⟩
          | some t =>
            rw [ho] at h6
            cases t with
            | app => obtain ⟨p', pc, h, -⟩ := h6; rw [ha] at h; cases h
            | bg => obtain ⟨pc, h7, h8, h9⟩ := h6; exact ⟨pc, h7, trivial, h9⟩
      · exact ⟨ho, h1, h2, h3, h4, h5, h6⟩
    · simp only [ShapedSys.step]; split <;> rfl
    · simp only [ShapedSys.step]; split <;> rfl
  | app =>
    cases ha : s.sys.app with
    | writing p pc =>
      by_cases hd : ∃ r, pc = .done r
      · obtain ⟨r, rfl⟩ := hd
        rw [silent_step (by simp) (by simp [ShapedSys.asks, ha, JobPc.asks])]
        obtain ⟨ho, h1, h2, h3, h4, h5, h6⟩ := h
        have hown : s.sys.owner = some .app := by
          cases hc : s.sys.owner with
          | none => rw [hc] at h6; have := h6.1; rw [ha] at this; exact this.elim
          | some t =>
            cases t with
            | app => rfl
            | bg => rw [hc] at h6; obtain ⟨pc', -, h, -⟩ := h6; rw [ha] at h; exact h.elim
        rw [hown] at h6
        obtain ⟨p', pc', ha', hb, hg, rfl, hlog⟩ := h6
        rw [ha] at ha'
        cases ha'
        have hg : r = .ok () := hg
        subst hg
        simp only [ShapedSys.step, ShapedSys.appStep, ha]
        refine .quiet ⟨ho, ?_, ?_, ?_, h4, ⟨h5.1, fun h => (by cases h)⟩, trivial, hb, rfl, ?_⟩ ⟨rfl, rfl, rfl, rfl⟩ rfl
        · simp [h1]
        · intro x hx
          simp only [List.mem_append, List.mem_singleton] at hx
          rcases hx with hx | rfl
          · exact h2 x hx
          · rfl
        · simp [h3, ha, AppPc.inflight]
        · rw [hlog]; simp [genuineOf_append, JobPc.begun]
      · have hnd : ∀ r, pc ≠ .done r := fun r h => hd ⟨r, h⟩
        rcases app_goes (prof := prof) hP hm h ha hnd cap k with ⟨g1, -, -⟩ | ⟨s', pc', new, rest', g1, g2, -⟩
        · rw [g1]; exact .quiet h ⟨rfl, rfl, rfl, rfl⟩ rfl
        · rw [g1]; exact ⟨_, _, g2, fun hc => absurd (hc.1 rfl p pc ha) hd⟩
    | idle =>
      rw [silent_step (by simp) (by simp [ShapedSys.asks, ha])]
      simp only [ShapedSys.step, ShapedSys.appStep, ha]
      exact .quiet (by have := keep ⟨[], [], []⟩; rw [← ha]; exact this) ⟨rfl, rfl, rfl, rfl⟩ rfl
    | gone =>
      rw [silent_step (by simp) (by simp [ShapedSys.asks, ha])]
      simp only [ShapedSys.step, ShapedSys.appStep, ha]
      exact .quiet (by have := keep ⟨[], [], []⟩; rw [← ha]; exact this) ⟨rfl, rfl, rfl, rfl⟩ rfl
    | locking p =>
      rw [silent_step (by simp) (by simp [ShapedSys.asks, ha])]
      simp only [ShapedSys.step, ShapedSys.appStep, ha]
      have hk := keep ⟨[], [], []⟩
      obtain ⟨ho, h1, h2, h3, h4, h5, h6⟩ := h
      cases hc : s.sys.owner with
      | some t => simp only; exact .quiet (by have := keep ⟨[], [], []⟩; rw [← ha, ← hc]; exact this) ⟨rfl, rfl, rfl, rfl⟩ rfl
      | none =>
        rw [hc] at h6
        simp only [h1, Bool.false_eq_true, if_false]
        refine .quiet ⟨ho, rfl, h2, ?_, h4, ⟨h5.1, fun h => (by cases h)⟩, ?_⟩ ⟨rfl, rfl, rfl, rfl⟩ rfl
        · rw [h3, ha]; rfl
        · exact ⟨p, _, rfl, h6.2.1, rfl, h6.2.2.1, by rw [h6.2.2.2]; simp [JobPc.begun, genuineOf]⟩
    | joining =>
      rw [silent_step (by simp) (by simp [ShapedSys.asks, ha])]
      simp only [ShapedSys.step, ShapedSys.appStep, ha]
      obtain ⟨ho, h1, h2, h3, h4, h5, h6⟩ := h
      split
      · refine .quiet ⟨ho, h1, h2, ?_, h4, ⟨h5.1, fun h => (by cases h)⟩, ?_⟩ ⟨rfl, rfl, rfl, rfl⟩ rfl
        · rw [h3, ha]; rfl
        · simp only
          cases hc : s.sys.owner with
          | none => rw [hc] at h6; exact ⟨trivial, h6.2⟩
          | some t =>
            rw [hc] at h6
            cases t with
            | app => obtain ⟨p', pc, h, -⟩ := h6; rw [ha] at h; cases h
            | bg => obtain ⟨pc, h7, h8, h9⟩ := h6; exact ⟨pc, h7, trivial, h9⟩
      · exact .quiet (by have := keep ⟨[], [], []⟩; rw [← ha]; exact this) ⟨rfl, rfl, rfl, rfl⟩ rfl
  | bg =>
    cases hb : s.sys.bg with
    | covering pc =>
      by_cases hd : ∃ r, pc = .done r
      · obtain ⟨r, rfl⟩ := hd
        rw [silent_step (by simp) (by simp [ShapedSys.asks, hb, JobPc.asks])]
        obtain ⟨ho, h1, h2, h3, h4, h5, h6⟩ := h
        have hown : s.sys.owner = some .bg := by
          cases hc : s.sys.owner with
          | none => rw [hc] at h6; have := h6.2.1; rw [hb] at this; exact this.elim
          | some t =>
            cases t with
            | bg => rfl
            | app => rw [hc] at h6; obtain ⟨p', pc', -, h, -⟩ := h6; rw [hb] at h; exact h.elim
        rw [hown] at h6
        obtain ⟨pc', hb', ha, hg, rfl, hlog⟩ := h6
        rw [hb] at hb'
        cases hb'
        have hg : r = .ok () := hg
        subst hg
        simp only [ShapedSys.step, ShapedSys.bgStep, hb]
        refine .quiet ⟨ho, ?_, h2, h3, h4, ⟨?_, h5.2⟩, ha, ?_, rfl, hlog⟩ ⟨rfl, rfl, rfl, rfl⟩ rfl
        · simp [h1]
        · simp
        · simp [BgPc.free]
      · have hnd : ∀ r, pc ≠ .done r := fun r h => hd ⟨r, h⟩
        rcases bg_goes (prof := prof) hP hm h hb hnd cap k with ⟨g1, -, -⟩ | ⟨s', pc', new, rest', g1, g2, -⟩
        · rw [g1]; exact .quiet h ⟨rfl, rfl, rfl, rfl⟩ rfl
        · rw [g1]; exact ⟨_, _, g2, fun hc => absurd (hc.2 rfl pc hb) hd⟩
    | checking =>
      rw [silent_step (by simp) (by simp [ShapedSys.asks, hb])]
      simp only [ShapedSys.step, ShapedSys.bgStep, hb]
      obtain ⟨ho, h1, h2, h3, h4, h5, h6⟩ := h
      refine .quiet ⟨ho, h1, h2, h3, h4, ⟨?_, h5.2⟩, ?_⟩ ⟨rfl, rfl, rfl, rfl⟩ rfl
      · simp only; split <;> simp
      · have hf : (if s.sys.shutdown = true then BgPc.finished else BgPc.sleeping).free := by split <;> trivial
        simp only
        cases hc : s.sys.owner with
        | none => rw [hc] at h6; exact ⟨h6.1, hf, h6.2.2⟩
        | some t =>
          rw [hc] at h6
          cases t with
          | app => obtain ⟨p', pc, h, -, h9⟩ := h6; exact ⟨p', pc, h, hf, h9⟩
          | bg => obtain ⟨pc, h7, -⟩ := h6; rw [hb] at h7; cases h7
    | sleeping =>
      rw [silent_step (by simp) (by simp [ShapedSys.asks, hb])]
      simp only [ShapedSys.step, ShapedSys.bgStep, hb]
      obtain ⟨ho, h1, h2, h3, h4, h5, h6⟩ := h
      refine .quiet ⟨ho, h1, h2, h3, h4, ⟨by simp, h5.2⟩, ?_⟩ ⟨rfl, rfl, rfl, rfl⟩ rfl
      simp only
      cases hc : s.sys.owner with
      | none => rw [hc] at h6; exact ⟨h6.1, trivial, h6.2.2⟩
      | some t =>
        rw [hc] at h6
        cases t with
        | app => obtain ⟨p', pc, h, -, h9⟩ := h6; exact ⟨p', pc, h, trivial, h9⟩
        | bg => obtain ⟨pc, h7, -⟩ := h6; rw [hb] at h7; cases h7
    | trying =>
      rw [silent_step (by simp) (by simp [ShapedSys.asks, hb])]
      simp only [ShapedSys.step, ShapedSys.bgStep, hb]
      obtain ⟨ho, h1, h2, h3, h4, h5, h6⟩ := h
      cases hc : s.sys.owner with
      | none =>
        rw [hc] at h6
        simp only [h1, Bool.false_eq_true, if_false]
        exact .quiet ⟨ho, rfl, h2, h3, h4, ⟨by simp, h5.2⟩, _, rfl, h6.1, rfl, h6.2.2⟩ ⟨rfl, rfl, rfl, rfl⟩ rfl
      | some t =>
        rw [hc] at h6
        simp only
        refine .quiet ⟨ho, h1, h2, h3, h4, ⟨by simp, h5.2⟩, ?_⟩ ⟨rfl, rfl, rfl, rfl⟩ rfl
        simp only
        cases t with
        | app => obtain ⟨p', pc, h, -, h9⟩ := h6; exact ⟨p', pc, h, trivial, h9⟩
        | bg => obtain ⟨pc, h7, -⟩ := h6; rw [hb] at h7; cases h7
    | finished =>
      rw [silent_step (by simp) (by simp [ShapedSys.asks, hb])]
      simp only [ShapedSys.step, ShapedSys.bgStep, hb]
      exact .quiet (by have := keep ⟨[], [], []⟩; rw [← hb]; exact this) ⟨rfl, rfl, rfl, rfl⟩ rfl
    | panicked =>
      rw [silent_step (by simp) (by simp [ShapedSys.asks, hb])]
      simp only [ShapedSys.step, ShapedSys.bgStep, hb]
      exact .quiet (by have := keep ⟨[], [], []⟩; rw [← hb]; exact this) ⟨rfl, rfl, rfl, rfl⟩ rfl

end Bip324
