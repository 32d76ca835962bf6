import Verif.Lemmas.HalvesRun
import Verif.Props.Interop

/-!
# Both halves at once over any transport: C69

After `into_split` the two halves run on one transport at the same time: every `read` and `write` of the transport by one half
may come between any two of the other, the peer may act between any two of them, writes may be dropped half way, and a
half may never be answered at all.  C66 has no such executions (there a call runs to its end before the next begins).  The
same for the shaped protocol, where the decoy thread or task writes as well.
-/

namespace Bip324

variable {P : Prims} {prof : Profile} {σ : Type} {fuel : Nat}

/-! ## Specification -/

/-- The payloads of the calls of `write`. -/
def HalvesLabel.payloads : List (HalvesLabel σ) → List Payload
  | [] => []
  | .write p :: ls => p :: HalvesLabel.payloads ls
  | _ :: ls => HalvesLabel.payloads ls

/-- The calls of `write` so far, in their order, with the point that each of them has reached. -/
def Halves.writes {H Res : Type} (d : Halves σ H Res) : List (Payload × WProc) := d.wrote ++ d.wr.toList

/-- The call has encrypted its packet. -/
def WProc.begun : WProc → Bool
  | .start _ => false
  | _ => true

/-- The bytes that the transport took are `pieces`, one for each call of `write`: nothing for a call that has not begun, else the
beginning of the packet of BIP-324 with the next number, and all of it when the call has got that far. -/
def InPieces (P : Prims) (kL kP : Bytes) (n : Nat) (ws : List (Payload × WProc)) (taken : Bytes) : Prop :=
  ∃ pieces : List Bytes, taken = pieces.flatten ∧ pieces.length = ws.length ∧
    ∀ i p pc, ws[i]? = some (p, pc) → ∃ t c piece, p.view = some (t, c) ∧ pieces[i]? = some piece ∧
      (pc.begun = false → piece = []) ∧
      (pc.begun = true →
        piece <+: Spec.packet P kL kP (n + (ws.take i).countP (·.2.begun)) (t == .decoy) [] c ∧
        (pc.AllTaken → piece = Spec.packet P kL kP (n + (ws.take i).countP (·.2.begun)) (t == .decoy) [] c))

/-! ## Lemmas -/

section
variable {H Res T : Type} {A : HalfApi σ H Res} {f : Flavour} {N : Conn σ}

theorem Halves.step_reads (d : Halves σ H Res) (l : HalvesLabel σ) :
    (d.step A f N P prof l).reads.length ≤ d.reads.length + 1 := by
  cases l with
  | read => simp [Halves.step]
  | peer s => simp [Halves.step]
  | reading =>
    simp only [Halves.step]
    split <;> simp
  | write p =>
    simp only [Halves.step]
    split <;> simp
  | writing =>
    simp only [Halves.step]
    split
    · simp
    · simp
    · split <;> simp
  | cancel =>
    simp only [Halves.step]
    split <;> simp

theorem Halves.step_writes (d : Halves σ H Res) (l : HalvesLabel σ) :
    (d.step A f N P prof l).writes.map (·.1) = d.writes.map (·.1) ∨
      ∃ p, l = .write p ∧ (d.step A f N P prof l).writes.map (·.1) = d.writes.map (·.1) ++ [p] := by
  cases l with
  | read => exact .inl rfl
  | peer s => exact .inl rfl
  | reading =>
    simp only [Halves.step]
    split <;> exact .inl rfl
  | write p =>
    cases hw : d.wr with
    | none => exact .inr ⟨p, rfl, by simp [Halves.step, Halves.writes, hw]⟩
    | some x => exact .inl (by simp [Halves.step, hw])
  | writing =>
    left
    cases hw : d.wr with
    | none => simp [Halves.step, hw]
    | some x =>
      obtain ⟨p, pc⟩ := x
      by_cases hd : ∃ x, pc = .done x
      · obtain ⟨x, rfl⟩ := hd
        simp [Halves.step, Halves.writes, hw]
      · rw [Halves.step_writing hw (fun x hx => hd ⟨x, hx⟩)]
        cases N.ask pc.asks d.run with
        | none => rfl
        | some y => simp [Halves.writes, hw]
  | cancel =>
    left
    cases f with
    | sync => rfl
    | async => cases hw : d.wr <;> simp [Halves.step, Halves.writes, hw]

theorem Halves.runs_count (ls : List (HalvesLabel σ)) : ∀ d : Halves σ H Res,
    (d.runs A f N P prof ls).reads.length ≤ d.reads.length + ls.length ∧
    ∃ ps, ps.Sublist (HalvesLabel.payloads ls) ∧ (d.runs A f N P prof ls).writes.map (·.1) = d.writes.map (·.1) ++ ps := by
  induction ls with
  | nil => intro d; exact ⟨Nat.le_refl _, [], .slnil, by simp [Halves.runs]⟩
  | cons l ls ih =>
    intro d
    obtain ⟨h1, ps, h2, h3⟩ := ih (d.step A f N P prof l)
    have h4 := Halves.step_reads (A := A) (f := f) (N := N) (P := P) (prof := prof) d l
    refine ⟨by rw [List.length_cons]; exact Nat.le_trans h1 (by omega), ?_⟩
    have e : d.runs A f N P prof (l :: ls) = (d.step A f N P prof l).runs A f N P prof ls := rfl
    rw [e, h3]
    rcases Halves.step_writes (A := A) (f := f) (N := N) (P := P) (prof := prof) d l with h5 | ⟨p, rfl, h5⟩
    · refine ⟨ps, ?_, by rw [h5]⟩
      cases l with
      | write p => exact h2.cons _
      | _ => exact h2
    · exact ⟨p :: ps, h2.cons_cons _, by rw [h5]; simp⟩

theorem payloads_sublist_length (ls : List (HalvesLabel σ)) : (HalvesLabel.payloads ls).length ≤ ls.length := by
  induction ls with
  | nil => simp [HalvesLabel.payloads]
  | cons l ls ih => cases l <;> simp [HalvesLabel.payloads] <;> omega

theorem mem_payloads {ls : List (HalvesLabel σ)} {p : Payload} : p ∈ HalvesLabel.payloads ls ↔ HalvesLabel.write p ∈ ls := by
  induction ls with
  | nil => simp [HalvesLabel.payloads]
  | cons l ls ih => cases l <;> simp [HalvesLabel.payloads, ih]

/-- Where each call is, from the number of steps that it made. -/
theorem runCalls_begun (cs : List WriteCall) : ∀ w : Writer,
    (w.runCalls f P prof cs).2.map WProc.begun = cs.map (fun c => c.steps != 0) := by
  induction cs with
  | nil => intro w; rfl
  | cons c cs ih =>
    intro w
    simp only [Writer.runCalls, List.map_cons, ih, List.cons.injEq, and_true]
    have h := steps_start (f := f) (P := P) (prof := prof) (w := w) (p := c.payload) (k := c.steps)
    by_cases hk : c.steps = 0
    · obtain ⟨q, hq⟩ := h.2 hk
      rw [hq, hk]; rfl
    · cases hp : (WProc.steps f P prof c.steps (w, .start c.payload)).2 with
      | start q => exact absurd (h.1 ⟨q, hp⟩) hk
      | _ => simp [WProc.begun, hk]

theorem started_length (cs : List WriteCall) : (started cs).length = cs.countP (fun c => c.steps != 0) := by
  simp only [started, List.length_map, List.countP_eq_length_filter]

/-- The bytes that the transport took. -/
theorem Halves.Done.pieces (hP : Lawful P) {big : T → T × Res} {F : A.Refines big} {d0 d : Halves σ H Res}
    (D : Halves.Done F f P prof d0 d) {kL kP : Bytes} {n : Nat} (hat : d0.out.At P kL kP n) (hn : n + d.writes.length < 2 ^ 32)
    (hv : ∀ p ∈ d.writes.map (·.1), ∃ t c, p.view = some (t, c)) : InPieces P kL kP n d.writes D.t := by
  have hp : D.cs.map (·.payload) = d.writes.map (·.1) := D.payloads
  have hlen : D.cs.length = d.writes.length := by
    have := congrArg List.length hp
    simpa using this
  have hw := D.writes [] [] []
  simp only [List.append_nil, List.nil_append] at hw
  have hw : Writer.runCalls f P prof ⟨d0.out, ⟨D.ω, D.φ, []⟩⟩ D.cs = (⟨d.out, ⟨[], [], D.t⟩⟩, d.writes.map (·.2)) := hw
  have hv' : ∀ c ∈ D.cs, ∃ t d, c.payload.view = some (t, d) := fun c hc =>
    hv c.payload (by rw [← hp]; exact List.mem_map_of_mem hc)
  obtain ⟨pieces, h1, -, h3, -, h5⟩ := C50_history hP D.cs (w := ⟨d0.out, ⟨D.ω, D.φ, []⟩⟩) hat (by omega) hv' hw
  simp only [List.nil_append] at h3
  have hb := runCalls_begun (f := f) (P := P) (prof := prof) D.cs ⟨d0.out, ⟨D.ω, D.φ, []⟩⟩
  rw [hw] at hb
  simp only [List.map_map] at hb
  refine ⟨pieces, h3, by rw [h1, hlen], ?_⟩
  intro i p pc hi
  have hpi := congrArg (fun l => l[i]?) hp
  simp only [List.getElem?_map, hi, Option.map_some] at hpi
  cases hci : D.cs[i]? with
  | none => rw [hci] at hpi; simp at hpi
  | some c =>
  rw [hci] at hpi
  simp only [Option.map_some, Option.some.injEq] at hpi
  obtain ⟨t, dd, hcv⟩ := hv' c (List.mem_of_getElem? hci)
  obtain ⟨piece, pc', g1, g2, g3, g4⟩ := h5 i c t dd hci hcv
  simp only [List.getElem?_map, hi, Option.map_some, Option.some.injEq] at g2
  subst g2
  have hbi := congrArg (fun l => l[i]?) hb
  simp only [List.getElem?_map, hi, hci, Option.map_some, Option.some.injEq, Function.comp_apply] at hbi
  have hcount : (started (D.cs.take i)).length = (d.writes.take i).countP (·.2.begun) := by
    rw [started_length]
    have := congrArg (fun l => (l.take i).countP id) hb
    simp only [← List.map_take, List.countP_map] at this
    simpa [Function.comp_def] using this.symm
  rw [hcount] at g4
  refine ⟨t, dd, piece, by rw [← hpi]; exact hcv, g1, fun h => g3 ?_, fun h => g4 ?_⟩
  · rw [h] at hbi
    simpa using hbi.symm
  · rw [h] at hbi
    simpa using hbi.symm

end

theorem callMany_readMany (k : Nat) : ∀ r : SyncReader, callMany (SyncReader.read P prof) k r = r.readMany P prof k := by
  induction k with
  | zero => intro r; rfl
  | succ k ih => intro r; rw [callMany, ih]; rfl

/-- What the polls returned. -/
def readyOf : List PollResult → List (Outcome ProtocolError Payload)
  | [] => []
  | .pending :: xs => readyOf xs
  | .ready x :: xs => x :: readyOf xs

theorem callMany_run (k : Nat) : ∀ r : AsyncReader,
    r.run P prof (List.replicate k .poll) =
      ((callMany (AsyncReader.poll P prof) k r).1, readyOf (callMany (AsyncReader.poll P prof) k r).2) := by
  induction k with
  | zero => intro r; rfl
  | succ k ih =>
    intro r
    rw [List.replicate_succ, AsyncReader.run]
    cases h : r.poll P prof with
    | mk r1 x =>
    cases x with
    | pending => simp only [ih, callMany, h, readyOf]
    | ready x => simp only [ih, callMany, h, readyOf]

theorem syncNew_script {N : Conn σ} (hN : N.Keeps) {magic rng : Bytes} {role : Role} {g : Option Bytes}
    {dec : Option (List Bytes)} {r r1 : ConnRun σ} {p : SyncN σ}
    (hnew : SyncN.new fuel N P prof magic role rng g dec r = some (r1, .ok p)) :
    ∃ (ρ : Source) (ω : List WEv) (φ : List (Option ErrorKind)) (t : Bytes) (log : HsLog),
      (∀ tρ tω tφ, handshake syncApi P prof magic role rng g dec (ρ ++ tρ) ⟨ω ++ tω, φ ++ tφ, []⟩ =
        (⟨tω, tφ, t⟩, log, .ok (p.inbound, p.outbound, ⟨p.sess.1, p.sess.2, tρ⟩))) ∧
      p.run.answers = r.answers ++ ρ ∧ p.run.sent = r.sent ++ t := by
  unfold SyncN.new at hnew
  cases hh : handshakeN fuel syncN N P prof magic role rng g dec r with
  | none => rw [hh] at hnew; simp at hnew
  | some z =>
  obtain ⟨r2, z⟩ := z
  rw [hh] at hnew
  cases z with
  | panic => simp at hnew
  | err e => simp at hnew
  | ok v =>
  obtain ⟨i, o, s⟩ := v
  simp only [Option.some.injEq, Prod.mk.injEq, Outcome.ok.injEq] at hnew
  obtain ⟨rfl, rfl⟩ := hnew
  obtain ⟨ρ, ω, φ, t, log, e, g1, s1⟩ := handshakeN_script syncMatch hN magic role rng g dec r _ _ hh
  refine ⟨ρ, ω, φ, t, log, fun tρ tω tφ => ?_, g1, s1⟩
  have e := e tρ tω tφ []
  rw [List.nil_append] at e
  exact e

theorem asyncNew_script {N : PollConn σ} (hN : N.Keeps) {magic rng : Bytes} {role : Role} {g : Option Bytes}
    {dec : Option (List Bytes)} {r r1 : ConnRun σ} {p : AsyncN σ}
    (hnew : AsyncN.new fuel N P prof magic role rng g dec r = some (r1, .ok p)) :
    p.state = .initReadingLength ∧
    ∃ (ρ : Source) (ω : List WEv) (φ : List (Option ErrorKind)) (t : Bytes) (log : HsLog),
      (∀ tρ tω tφ, handshake asyncApi P prof magic role rng g dec (ρ ++ tρ) ⟨ω ++ tω, φ ++ tφ, []⟩ =
        (⟨tω, tφ, t⟩, log, .ok (p.inbound, p.outbound, ⟨p.sess.1, p.sess.2, tρ⟩))) ∧
      p.run.answers = r.answers ++ ρ ∧ p.run.sent = r.sent ++ t := by
  unfold AsyncN.new at hnew
  cases hh : handshakeN fuel asyncN N.toConn P prof magic role rng g dec r with
  | none => rw [hh] at hnew; simp at hnew
  | some z =>
  obtain ⟨r2, z⟩ := z
  rw [hh] at hnew
  cases z with
  | panic => simp at hnew
  | err e => simp at hnew
  | ok v =>
  obtain ⟨i, o, s⟩ := v
  simp only [Option.some.injEq, Prod.mk.injEq, Outcome.ok.injEq] at hnew
  obtain ⟨rfl, rfl⟩ := hnew
  obtain ⟨ρ, ω, φ, t, log, e, g1, s1⟩ := handshakeN_script asyncMatch hN.conn magic role rng g dec r _ _ hh
  refine ⟨rfl, ρ, ω, φ, t, log, fun tρ tω tφ => ?_, g1, s1⟩
  have e := e tρ tω tφ []
  rw [List.nil_append] at e
  exact e

/-- The handshake and the reads of a blocking connection, from its script. -/
theorem sync_got (hP : Lawful P) {magic rng : Bytes} {role : Role} {g : Option Bytes} {dec : Option (List Bytes)}
    (hdec : (dec.getD []).length < 2 ^ 31) {src src1 : Source} {ω tω : List WEv} {φ tφ : List (Option ErrorKind)} {t : Bytes} {log : HsLog}
    {i : InboundCipher} {o : OutboundCipher} {buf : Bytes} {b : Bool}
    (hh : handshake syncApi P prof magic role rng g dec src ⟨ω, φ, []⟩ = (⟨tω, tφ, t⟩, log, .ok (i, o, ⟨buf, b, src1⟩)))
    (hlen : src.bytes.length < 2 ^ 35) {k : Nat} (hk : k < 2 ^ 30) {rd : SyncReader} {xs : List (Outcome ProtocolError Payload)}
    (hr : SyncReader.readMany P prof ⟨i, ⟨buf, b, src1⟩⟩ k = (rd, xs)) (hok : ∀ x ∈ xs, ∃ q, x = .ok q) :
    ∃ peerKey garbage decoys version ms,
      let D := Spec.directions P magic (P.ellswift rng) peerKey rng role.initiating
      Spec.Admissible magic D.2.2.2 peerKey garbage decoys version ∧
      src.bytes = Spec.peerTranscript P D.2 peerKey garbage decoys version ++
        Spec.packetStream P D.2.1 D.2.2.1 (decoys.length + 1) [] ms ++ rd.reader.bytes ∧
      xs = ms.map (fun m => .ok (delivered m)) ∧
      o.At P D.1.1 D.1.2.1 ((dec.getD []).length + 1) ∧
      t = Spec.ownTranscript P D.1 (P.ellswift rng) (g.getD []) (dec.getD []) := by
  obtain ⟨peerKey, garbage, decoys, version, a1, a2, a3, a4, a5⟩ := C47_sync_sound hP (by omega) (by omega) hh
  have hcount : decoys.length + 1 < 2 ^ 31 := by
    have h4 := congrArg List.length a2
    have h5 := packetStream_length hP (Spec.directions P magic (P.ellswift rng) peerKey rng role.initiating).2.1
      (Spec.directions P magic (P.ellswift rng) peerKey rng role.initiating).2.2.1 0 garbage
      (Spec.handshakeMessages decoys version)
    simp only [Spec.peerTranscript, List.length_append] at h4
    have h6 : (Spec.handshakeMessages decoys version).length = decoys.length + 1 := by simp [Spec.handshakeMessages]
    omega
  obtain ⟨ms, b1, -, -, b4, -⟩ := C46_sync hP k (r := ⟨i, ⟨buf, b, src1⟩⟩) a3 (by omega) hr hok
  refine ⟨peerKey, garbage, decoys, version, ms, a1, ?_, b1, a4, by simpa using a5⟩
  rw [a2, List.append_assoc]
  exact congrArg _ b4

/-- The handshake and the reads of an asynchronous connection, from its script. -/
theorem async_got (hP : Lawful P) {magic rng : Bytes} {role : Role} {g : Option Bytes} {dec : Option (List Bytes)}
    (hdec : (dec.getD []).length < 2 ^ 31) {src src1 : Source} {ω tω : List WEv} {φ tφ : List (Option ErrorKind)} {t : Bytes} {log : HsLog}
    {i : InboundCipher} {o : OutboundCipher} {buf : Bytes} {b : Nat}
    (hh : handshake asyncApi P prof magic role rng g dec src ⟨ω, φ, []⟩ = (⟨tω, tφ, t⟩, log, .ok (i, o, ⟨buf, b, src1⟩)))
    (hlen : src.bytes.length < 2 ^ 35) {k : Nat} (hk : k < 2 ^ 30) {rd : AsyncReader} {xs : List PollResult}
    (hr : callMany (AsyncReader.poll P prof) k ⟨i, ⟨buf, b, src1⟩, .initReadingLength⟩ = (rd, xs)) :
    ∃ peerKey garbage decoys version ms held,
      let D := Spec.directions P magic (P.ellswift rng) peerKey rng role.initiating
      Spec.Admissible magic D.2.2.2 peerKey garbage decoys version ∧
      src.bytes = Spec.peerTranscript P D.2 peerKey garbage decoys version ++
        Spec.packetStream P D.2.1 D.2.2.1 (decoys.length + 1) [] ms ++ held ++ rd.reader.remaining ∧
      payloads (readyOf xs) = ms.map delivered ∧ held.length < 2 ^ 24 + 20 ∧
      (∀ x ∈ readyOf xs, x ≠ .panic) ∧
      o.At P D.1.1 D.1.2.1 ((dec.getD []).length + 1) ∧
      t = Spec.ownTranscript P D.1 (P.ellswift rng) (g.getD []) (dec.getD []) := by
  obtain ⟨peerKey, garbage, decoys, version, a1, a2, a3, a4, a5⟩ := C47_async_sound hP (by omega) (by omega) hh
  have hcount : decoys.length + 1 < 2 ^ 31 := by
    have h4 := congrArg List.length a2
    have h5 := packetStream_length hP (Spec.directions P magic (P.ellswift rng) peerKey rng role.initiating).2.1
      (Spec.directions P magic (P.ellswift rng) peerKey rng role.initiating).2.2.1 0 garbage
      (Spec.handshakeMessages decoys version)
    simp only [Spec.peerTranscript, List.length_append] at h4
    have h6 : (Spec.handshakeMessages decoys version).length = decoys.length + 1 := by simp [Spec.handshakeMessages]
    omega
  have hrun := callMany_run (P := P) (prof := prof) k ⟨i, ⟨buf, b, src1⟩, .initReadingLength⟩
  rw [hr] at hrun
  obtain ⟨ms, rest, b1, b2, -, b4, b5⟩ := C46_async hP (List.replicate k .poll)
    (r := ⟨i, ⟨buf, b, src1⟩, .initReadingLength⟩) (fresh_reads a3 rfl) (by rw [List.length_replicate]; omega) hrun
  obtain ⟨-, held, b6, b7⟩ := reads_rest b5
  refine ⟨peerKey, garbage, decoys, version, ms, held, a1, ?_, b1, b7, b2, a4, by simpa using a5⟩
  have b4 : AsyncSession.remaining ⟨buf, b, src1⟩ = _ := b4
  rw [a2, b4, b6]
  simp only [List.append_assoc]

theorem syncHalf_bytes (h : SyncHalf) : (h.on []).reader.bytes = if h.sess.2 then [] else h.sess.1 := by
  simp only [SyncHalf.on, SyncSession.bytes, SyncSession.abs]
  by_cases h2 : h.sess.2 = true
  · simp [h2, Source.bytes]
  · by_cases hl : h.sess.1 = []
    · simp [hl, Source.bytes]
    · simp [h2, hl, Source.bytes]

/-! ## Both halves -/

/-- C69, blocking API: whatever the two halves, the transport and the peer do after one another, the reads are those of one
reader over the script of the transport's answers, and the writes those of one writer that makes the calls one after the
other: no half sees the other. -/
theorem C69_halves_sync {N : Conn σ} (hN : N.Keeps) {magic rng : Bytes} {role : Role} {g : Option Bytes}
    {dec : Option (List Bytes)} {r r1 : ConnRun σ} {p : SyncN σ}
    (hnew : SyncN.new fuel N P prof magic role rng g dec r = some (r1, .ok p)) (ls : List (HalvesLabel σ))
    {d : Halves σ SyncHalf (Outcome ProtocolError Payload)} (hd : p.split.runs (syncHalf N P prof) .sync N P prof ls = d) :
    ∃ (ρ : Source) (ω : List WEv) (φ : List (Option ErrorKind)) (q : SyncProtocol) (rd : SyncReader) (cs : List WriteCall)
      (out : Bytes),
      SyncProtocol.new P prof magic role rng g dec ρ ⟨ω, φ, []⟩ = .ok q ∧
      q.reader.readMany P prof d.reads.length = (rd, d.reads) ∧
      (d.half.pc = .idle → rd = d.half.on []) ∧
      cs.map (·.payload) = d.writes.map (·.1) ∧
      q.writer.runCalls .sync P prof cs = (⟨d.out, ⟨[], [], out⟩⟩, d.writes.map (·.2)) ∧
      d.run.answers = r.answers ++ ρ ∧ d.run.sent = r.sent ++ out := by
  obtain ⟨ρ1, ω1, φ1, t1, log, e1, g1, s1⟩ := syncNew_script hN hnew
  have hi : (syncRefines (P := P) (prof := prof) hN).Idle p.split.half := rfl
  obtain ⟨D⟩ : Nonempty (Halves.Done (syncRefines (P := P) (prof := prof) hN) .sync P prof p.split
      (p.split.runs (syncHalf N P prof) .sync N P prof ls)) := Halves.Done.runs ls (Halves.Done.init hi)
  rw [hd] at D
  have e1 := e1 (D.ρ ++ D.ρc) D.ω D.φ
  have hr := D.reads D.ρc
  have hw := D.writes [] [] t1
  simp only [List.append_nil] at hw
  refine ⟨ρ1 ++ (D.ρ ++ D.ρc), ω1 ++ D.ω, φ1 ++ D.φ,
    ⟨⟨p.inbound, ⟨p.sess.1, p.sess.2, D.ρ ++ D.ρc⟩⟩, ⟨p.outbound, ⟨D.ω, D.φ, t1⟩⟩⟩, D.hm.on D.ρc, D.cs, t1 ++ D.t,
    ?_, ?_, fun hidle => ?_, D.payloads, hw, ?_, ?_⟩
  · unfold SyncProtocol.new
    rw [e1]
  · rw [callMany_readMany] at hr
    exact hr
  · obtain ⟨h1, h2⟩ := D.mid.2 hidle
    rw [h2]
    exact h1 []
  · rw [D.answers]
    show p.run.answers ++ _ = _
    rw [g1]
    simp only [List.append_assoc]
  · rw [D.sent]
    show p.run.sent ++ _ = _
    rw [s1, List.append_assoc]

/-- C69, asynchronous API: likewise, whatever is polled or dropped when. -/
theorem C69_halves_async {N : PollConn σ} (hN : N.Keeps) {magic rng : Bytes} {role : Role} {g : Option Bytes}
    {dec : Option (List Bytes)} {r r1 : ConnRun σ} {p : AsyncN σ}
    (hnew : AsyncN.new fuel N P prof magic role rng g dec r = some (r1, .ok p)) (ls : List (HalvesLabel σ))
    {d : Halves σ AsyncHalf PollResult} (hd : p.split.runs (asyncHalf N P prof) .async N.toConn P prof ls = d) :
    ∃ (ρ : Source) (ω : List WEv) (φ : List (Option ErrorKind)) (q : AsyncProtocol) (rd : AsyncReader) (cs : List WriteCall)
      (out : Bytes),
      AsyncProtocol.new P prof magic role rng g dec ρ ⟨ω, φ, []⟩ = .ok q ∧
      callMany (AsyncReader.poll P prof) d.reads.length q.reader = (rd, d.reads) ∧
      (d.half.busy = false → rd = d.half.on []) ∧
      cs.map (·.payload) = d.writes.map (·.1) ∧
      q.writer.runCalls .async P prof cs = (⟨d.out, ⟨[], [], out⟩⟩, d.writes.map (·.2)) ∧
      d.run.answers = r.answers ++ ρ ∧ d.run.sent = r.sent ++ out := by
  obtain ⟨hst, ρ1, ω1, φ1, t1, log, e1, g1, s1⟩ := asyncNew_script hN hnew
  have hi : (asyncRefines (P := P) (prof := prof) hN).Idle p.split.half := rfl
  obtain ⟨D⟩ : Nonempty (Halves.Done (asyncRefines (P := P) (prof := prof) hN) .async P prof p.split
      (p.split.runs (asyncHalf N P prof) .async N.toConn P prof ls)) := Halves.Done.runs ls (Halves.Done.init hi)
  rw [hd] at D
  have e1 := e1 (D.ρ ++ D.ρc) D.ω D.φ
  have hr := D.reads D.ρc
  have hw := D.writes [] [] t1
  simp only [List.append_nil] at hw
  refine ⟨ρ1 ++ (D.ρ ++ D.ρc), ω1 ++ D.ω, φ1 ++ D.φ,
    ⟨⟨p.inbound, ⟨p.sess.1, p.sess.2, D.ρ ++ D.ρc⟩, .initReadingLength⟩, ⟨p.outbound, ⟨D.ω, D.φ, t1⟩⟩⟩, D.hm.on D.ρc, D.cs,
    t1 ++ D.t, ?_, ?_, fun hidle => ?_, D.payloads, hw, ?_, ?_⟩
  · unfold AsyncProtocol.new
    rw [e1]
  · have h3 : AsyncHalf.on p.split.half (D.ρ ++ D.ρc) =
        ⟨p.inbound, ⟨p.sess.1, p.sess.2, D.ρ ++ D.ρc⟩, .initReadingLength⟩ := by
      rw [← hst]; rfl
    rw [← h3]
    exact hr
  · obtain ⟨h1, h2⟩ := D.mid.2 hidle
    rw [h2]
    exact h1 []
  · rw [D.answers]
    show p.run.answers ++ _ = _
    rw [g1]
    simp only [List.append_assoc]
  · rw [D.sent]
    show p.run.sent ++ _ = _
    rw [s1, List.append_assoc]

/-- C69, blocking API, spelt out: in every such execution everything that the transport gave is the handshake of BIP-324, the
packets of what `read` returned, in order, and what is not used yet; and everything that it took is our handshake and one
piece for every call of `write`, in order, as in `InPieces`.  (What was written: `C69_calls`.) -/
theorem C69_connection_sync (hP : Lawful P) {N : Conn σ} (hN : N.Keeps) {magic rng : Bytes} {role : Role} {g : Option Bytes}
    {dec : Option (List Bytes)} (hdec : (dec.getD []).length < 2 ^ 31) {r r1 : ConnRun σ} {p : SyncN σ}
    (hnew : SyncN.new fuel N P prof magic role rng g dec r = some (r1, .ok p)) {ls : List (HalvesLabel σ)}
    {d : Halves σ SyncHalf (Outcome ProtocolError Payload)} (hd : p.split.runs (syncHalf N P prof) .sync N P prof ls = d)
    (hlen : d.run.got.length < r.got.length + 2 ^ 35) (hk : ls.length < 2 ^ 30) (hr : ∀ x ∈ d.reads, ∃ q, x = .ok q)
    (hv : ∀ q, .write q ∈ ls → ∃ t c, q.view = some (t, c)) :
    ∃ peerKey garbage decoys version ms unread taken,
      let D := Spec.directions P magic (P.ellswift rng) peerKey rng role.initiating
      Spec.Admissible magic D.2.2.2 peerKey garbage decoys version ∧
      d.run.got = r.got ++ (Spec.peerTranscript P D.2 peerKey garbage decoys version ++
        Spec.packetStream P D.2.1 D.2.2.1 (decoys.length + 1) [] ms ++ unread) ∧
      d.reads = ms.map (fun m => .ok (delivered m)) ∧
      (d.half.pc = .idle → unread = if d.half.sess.2 then [] else d.half.sess.1) ∧
      d.run.sent = r.sent ++ (Spec.ownTranscript P D.1 (P.ellswift rng) (g.getD []) (dec.getD []) ++ taken) ∧
      InPieces P D.1.1 D.1.2.1 ((dec.getD []).length + 1) d.writes taken := by
  obtain ⟨ρ1, ω1, φ1, t1, log, e1, g1, s1⟩ := syncNew_script hN hnew
  have hi : (syncRefines (P := P) (prof := prof) hN).Idle p.split.half := rfl
  obtain ⟨D⟩ : Nonempty (Halves.Done (syncRefines (P := P) (prof := prof) hN) .sync P prof p.split
      (p.split.runs (syncHalf N P prof) .sync N P prof ls)) := Halves.Done.runs ls (Halves.Done.init hi)
  obtain ⟨c1, ps, c2, c3⟩ := Halves.runs_count (A := syncHalf N P prof) (f := .sync) (N := N) (P := P) (prof := prof) ls p.split
  rw [hd] at D c1 c3
  have e1 := e1 (D.ρ ++ D.ρc) D.ω D.φ
  have hrd := D.reads D.ρc
  rw [callMany_readMany] at hrd
  have hans : d.run.answers = r.answers ++ (ρ1 ++ (D.ρ ++ D.ρc)) := by
    rw [D.answers]
    show p.run.answers ++ _ = _
    rw [g1, List.append_assoc]
  have hgot := ConnRun.got_of hans
  have hlen' : (ρ1 ++ (D.ρ ++ D.ρc)).bytes.length < 2 ^ 35 := by
    have := congrArg List.length hgot
    simp only [List.length_append] at this
    omega
  have hz : p.split.reads.length = 0 := rfl
  obtain ⟨peerKey, garbage, decoys, version, ms, b1, b2, b3, b4, b5⟩ :=
    sync_got hP hdec e1 hlen' (k := d.reads.length) (by omega) hrd hr
  have hwl : d.writes.length = ps.length := by
    have := congrArg List.length c3
    simpa [Halves.writes, SyncN.split] using this
  have hpl := payloads_sublist_length ls
  have hpl2 := c2.length_le
  refine ⟨peerKey, garbage, decoys, version, ms, _, D.t, b1, by rw [hgot, b2], b3, fun hidle => ?_, ?_,
    D.pieces hP b4 (by omega) (fun q hq => ?_)⟩
  · obtain ⟨h1, h2⟩ := D.mid.2 hidle
    rw [h2]
    have h1 : D.hm.on [] = d.half.on [] := h1 []
    show (D.hm.on []).reader.bytes = _
    rw [h1, syncHalf_bytes]
  · rw [D.sent]
    show p.run.sent ++ _ = _
    rw [s1, b5, List.append_assoc]
  · rw [c3] at hq
    simp only [Halves.writes, SyncN.split, Option.toList_none, List.append_nil, List.map_nil, List.nil_append] at hq
    exact hv q (mem_payloads.1 (c2.subset hq))

/-- C69, asynchronous API, spelt out. -/
theorem C69_connection_async (hP : Lawful P) {N : PollConn σ} (hN : N.Keeps) {magic rng : Bytes} {role : Role}
    {g : Option Bytes} {dec : Option (List Bytes)} (hdec : (dec.getD []).length < 2 ^ 31) {r r1 : ConnRun σ} {p : AsyncN σ}
    (hnew : AsyncN.new fuel N P prof magic role rng g dec r = some (r1, .ok p)) {ls : List (HalvesLabel σ)}
    {d : Halves σ AsyncHalf PollResult} (hd : p.split.runs (asyncHalf N P prof) .async N.toConn P prof ls = d)
    (hlen : d.run.got.length < r.got.length + 2 ^ 35) (hk : ls.length < 2 ^ 30)
    (hv : ∀ q, .write q ∈ ls → ∃ t c, q.view = some (t, c)) :
    ∃ peerKey garbage decoys version ms held unread taken,
      let D := Spec.directions P magic (P.ellswift rng) peerKey rng role.initiating
      Spec.Admissible magic D.2.2.2 peerKey garbage decoys version ∧
      d.run.got = r.got ++ (Spec.peerTranscript P D.2 peerKey garbage decoys version ++
        Spec.packetStream P D.2.1 D.2.2.1 (decoys.length + 1) [] ms ++ held ++ unread) ∧
      payloads (readyOf d.reads) = ms.map delivered ∧ (∀ x ∈ readyOf d.reads, x ≠ .panic) ∧
      held.length < 2 ^ 24 + 20 ∧ (d.half.busy = false → unread = d.half.sess.1.drop d.half.sess.2) ∧
      d.run.sent = r.sent ++ (Spec.ownTranscript P D.1 (P.ellswift rng) (g.getD []) (dec.getD []) ++ taken) ∧
      InPieces P D.1.1 D.1.2.1 ((dec.getD []).length + 1) d.writes taken := by
  obtain ⟨hst, ρ1, ω1, φ1, t1, log, e1, g1, s1⟩ := asyncNew_script hN hnew
  have hi : (asyncRefines (P := P) (prof := prof) hN).Idle p.split.half := rfl
  obtain ⟨D⟩ : Nonempty (Halves.Done (asyncRefines (P := P) (prof := prof) hN) .async P prof p.split
      (p.split.runs (asyncHalf N P prof) .async N.toConn P prof ls)) := Halves.Done.runs ls (Halves.Done.init hi)
  obtain ⟨c1, ps, c2, c3⟩ := Halves.runs_count (A := asyncHalf N P prof) (f := .async) (N := N.toConn) (P := P) (prof := prof)
    ls p.split
  rw [hd] at D c1 c3
  have e1 := e1 (D.ρ ++ D.ρc) D.ω D.φ
  have hrd : callMany (AsyncReader.poll P prof) d.reads.length
      ⟨p.inbound, ⟨p.sess.1, p.sess.2, D.ρ ++ D.ρc⟩, .initReadingLength⟩ = (D.hm.on D.ρc, d.reads) := by
    rw [← hst]
    exact D.reads D.ρc
  have hans : d.run.answers = r.answers ++ (ρ1 ++ (D.ρ ++ D.ρc)) := by
    rw [D.answers]
    show p.run.answers ++ _ = _
    rw [g1, List.append_assoc]
  have hgot := ConnRun.got_of hans
  have hlen' : (ρ1 ++ (D.ρ ++ D.ρc)).bytes.length < 2 ^ 35 := by
    have := congrArg List.length hgot
    simp only [List.length_append] at this
    omega
  have hz : p.split.reads.length = 0 := rfl
  obtain ⟨peerKey, garbage, decoys, version, ms, held, b1, b2, b3, b6, b7, b4, b5⟩ :=
    async_got hP hdec e1 hlen' (k := d.reads.length) (by omega) hrd
  have hwl : d.writes.length = ps.length := by
    have := congrArg List.length c3
    simpa [Halves.writes, AsyncN.split] using this
  have hpl := payloads_sublist_length ls
  have hpl2 := c2.length_le
  refine ⟨peerKey, garbage, decoys, version, ms, held, _, D.t, b1, by rw [hgot, b2], b3, b7, b6, fun hidle => ?_, ?_,
    D.pieces hP b4 (by omega) (fun q hq => ?_)⟩
  · obtain ⟨h1, h2⟩ := D.mid.2 hidle
    rw [h2]
    have h1 : D.hm.on [] = d.half.on [] := h1 []
    rw [h1]
    simp [AsyncHalf.on, AsyncSession.remaining, Source.bytes]
  · rw [D.sent]
    show p.run.sent ++ _ = _
    rw [s1, b5, List.append_assoc]
  · rw [c3] at hq
    simp only [Halves.writes, AsyncN.split, Option.toList_none, List.append_nil, List.map_nil, List.nil_append] at hq
    exact hv q (mem_payloads.1 (c2.subset hq))

/-- C69: the calls of `write` are those that the application made, in its order (one that it makes while another is in
progress does not happen: `write` borrows the writer). -/
theorem C69_calls {H Res : Type} {A : HalfApi σ H Res} {f : Flavour} {N : Conn σ} {d0 : Halves σ H Res}
    (h0 : d0.wr = none ∧ d0.wrote = []) (ls : List (HalvesLabel σ)) :
    ((d0.runs A f N P prof ls).writes.map (·.1)).Sublist (HalvesLabel.payloads ls) := by
  obtain ⟨-, ps, h1, h2⟩ := Halves.runs_count (A := A) (f := f) (N := N) (P := P) (prof := prof) ls d0
  rw [h2]
  simpa [Halves.writes, h0.1, h0.2] using h1

/-! ## The shaped protocol -/

variable {R : Rng}

theorem shapedNew {N : Conn σ} {magic rng : Bytes} {role : Role} {config : TrafficConfig} {gen : R.State} {r r1 : ConnRun σ}
    {s0 : ShapedN σ R} (hnew : ShapedN.new fuel N P prof magic role rng config gen r = some (r1, .ok s0)) :
    ∃ sh g dec rec p, Shaper.handshake (R := R) ⟨config, gen⟩ = (sh, g, dec, rec) ∧
      SyncN.new fuel N P prof magic role rng g dec r = some (r1, .ok p) ∧
      s0 = ⟨.init ⟨⟨p.inbound, ⟨p.sess.1, p.sess.2, []⟩⟩, ⟨p.outbound, ⟨[], [], []⟩⟩⟩ sh rec, ⟨p.inbound, p.sess, .idle⟩, p.run⟩ := by
  unfold ShapedN.new at hnew
  cases hs : Shaper.handshake (R := R) ⟨config, gen⟩ with
  | mk sh y =>
  obtain ⟨g, dec, rec⟩ := y
  rw [hs] at hnew
  simp only at hnew
  cases hn : SyncN.new fuel N P prof magic role rng g dec r with
  | none => rw [hn] at hnew; simp at hnew
  | some z =>
  obtain ⟨r2, z⟩ := z
  rw [hn] at hnew
  cases z with
  | panic => simp at hnew
  | err e => simp at hnew
  | ok p =>
  simp only [Option.some.injEq, Prod.mk.injEq, Outcome.ok.injEq] at hnew
  obtain ⟨rfl, rfl⟩ := hnew
  exact ⟨sh, g, dec, rec, p, rfl, hn, rfl⟩

theorem asyncShapedNew {N : PollConn σ} {magic rng : Bytes} {role : Role} {config : TrafficConfig} {gen : R.State}
    {r r1 : ConnRun σ} {s0 : AsyncShapedN σ R}
    (hnew : AsyncShapedN.new fuel N P prof magic role rng config gen r = some (r1, .ok s0)) :
    ∃ sh g dec rec p, Shaper.handshake (R := R) ⟨config, gen⟩ = (sh, g, dec, rec) ∧
      AsyncN.new fuel N P prof magic role rng g dec r = some (r1, .ok p) ∧
      s0 = ⟨.init ⟨⟨p.inbound, ⟨p.sess.1, p.sess.2, []⟩, p.state⟩, ⟨p.outbound, ⟨[], [], []⟩⟩⟩ sh rec,
        ⟨p.inbound, p.sess, p.state, false⟩, p.run⟩ := by
  unfold AsyncShapedN.new at hnew
  cases hs : Shaper.handshake (R := R) ⟨config, gen⟩ with
  | mk sh y =>
  obtain ⟨g, dec, rec⟩ := y
  rw [hs] at hnew
  simp only at hnew
  cases hn : AsyncN.new fuel N P prof magic role rng g dec r with
  | none => rw [hn] at hnew; simp at hnew
  | some z =>
  obtain ⟨r2, z⟩ := z
  rw [hn] at hnew
  cases z with
  | panic => simp at hnew
  | err e => simp at hnew
  | ok p =>
  simp only [Option.some.injEq, Prod.mk.injEq, Outcome.ok.injEq] at hnew
  obtain ⟨rfl, rfl⟩ := hnew
  exact ⟨sh, g, dec, rec, p, rfl, hn, rfl⟩

/-- C69, threads: every execution of the shaped protocol over any transport, whatever the threads, the transport and the peer
do after one another, is one over the scripts of the transport's answers (`ls'`: the steps that the transport did not
block, and one for every read that ended): same results of the reads and writes, same state, same bytes. -/
theorem C69_threads {N : Conn σ} (hN : N.Keeps) {magic rng : Bytes} {role : Role} {config : TrafficConfig} {gen : R.State}
    {r r1 : ConnRun σ} {s0 s : ShapedN σ R}
    (hnew : ShapedN.new fuel N P prof magic role rng config gen r = some (r1, .ok s0)) {ls : List (ShapedLabel σ SysLabel)}
    (hs : s0.runs N P prof ls = s) :
    ∃ (ρ : Source) (ω : List WEv) (φ : List (Option ErrorKind)) (q : ShapedSys R) (ls' : List SysLabel) (rd : SyncReader)
      (out : Bytes),
      ShapedSys.new P prof magic role rng config gen ρ ⟨ω, φ, []⟩ = .ok q ∧
      q.run P prof ls' = { s.sys with ws := s.sys.ws.over ⟨[], [], out⟩, reader := ⟨rd, s.sys.reader.recorded⟩ } ∧
      (s.half.pc = .idle → rd = s.half.on []) ∧
      ls'.length ≤ ls.length ∧ (∀ l ∈ ls', l ≠ .read → .sys l ∈ ls) ∧
      s.run.answers = r.answers ++ ρ ∧ s.run.sent = r.sent ++ out := by
  obtain ⟨sh, g, dec, rec, p, hsh, hn, rfl⟩ := shapedNew hnew
  obtain ⟨ρ1, ω1, φ1, t1, log, e1, g1, s1⟩ := syncNew_script hN hn
  obtain ⟨D⟩ := ShapedN.Done.runs (P := P) (prof := prof) (N := N) (hN := hN) ls
    (ShapedN.Done.init (s0 := ⟨.init ⟨⟨p.inbound, ⟨p.sess.1, p.sess.2, []⟩⟩, ⟨p.outbound, ⟨[], [], []⟩⟩⟩ sh rec,
      ⟨p.inbound, p.sess, .idle⟩, p.run⟩) rfl)
  rw [hs, List.nil_append] at D
  have e1 := e1 (D.ρ ++ D.ρc) D.ω D.φ
  have hsim := D.sim D.ρc [] [] t1
  simp only [List.append_nil] at hsim
  refine ⟨ρ1 ++ (D.ρ ++ D.ρc), ω1 ++ D.ω, φ1 ++ D.φ,
    .init ⟨⟨p.inbound, ⟨p.sess.1, p.sess.2, D.ρ ++ D.ρc⟩⟩, ⟨p.outbound, ⟨D.ω, D.φ, t1⟩⟩⟩ sh rec, D.ls', D.hm.on D.ρc, t1 ++ D.t,
    ?_, hsim, fun hidle => ?_, D.labels.1, D.labels.2, ?_, ?_⟩
  · simp only [ShapedSys.new, hsh, SyncProtocol.new, e1]
  · obtain ⟨h1, h2⟩ := D.mid.2 hidle
    rw [h2]
    exact h1 []
  · rw [D.answers]
    show p.run.answers ++ _ = _
    rw [g1]
    simp only [List.append_assoc]
  · rw [D.sent]
    show p.run.sent ++ _ = _
    rw [s1, List.append_assoc]

/-- C69, task: likewise. -/
theorem C69_task {N : PollConn σ} (hN : N.Keeps) {magic rng : Bytes} {role : Role} {config : TrafficConfig} {gen : R.State}
    {r r1 : ConnRun σ} {s0 s : AsyncShapedN σ R}
    (hnew : AsyncShapedN.new fuel N P prof magic role rng config gen r = some (r1, .ok s0))
    {ls : List (ShapedLabel σ AsyncLabel)} (hs : s0.runs N P prof ls = s) :
    ∃ (ρ : Source) (ω : List WEv) (φ : List (Option ErrorKind)) (q : AsyncShapedSys R) (ls' : List AsyncLabel)
      (rd : AsyncReader) (out : Bytes),
      AsyncShapedSys.new P prof magic role rng config gen ρ ⟨ω, φ, []⟩ = .ok q ∧
      q.run P prof ls' = { s.sys with ws := s.sys.ws.over ⟨[], [], out⟩, reader := ⟨rd, s.sys.reader.recorded⟩ } ∧
      (s.half.busy = false → rd = s.half.on []) ∧
      ls'.length ≤ ls.length ∧ (∀ l ∈ ls', l ≠ .read → .sys l ∈ ls) ∧
      s.run.answers = r.answers ++ ρ ∧ s.run.sent = r.sent ++ out := by
  obtain ⟨sh, g, dec, rec, p, hsh, hn, rfl⟩ := asyncShapedNew hnew
  obtain ⟨hst, ρ1, ω1, φ1, t1, log, e1, g1, s1⟩ := asyncNew_script hN hn
  obtain ⟨D⟩ := AsyncShapedN.Done.runs (P := P) (prof := prof) (N := N) (hN := hN) ls
    (AsyncShapedN.Done.init (s0 := ⟨.init ⟨⟨p.inbound, ⟨p.sess.1, p.sess.2, []⟩, p.state⟩, ⟨p.outbound, ⟨[], [], []⟩⟩⟩ sh rec,
      ⟨p.inbound, p.sess, p.state, false⟩, p.run⟩) rfl)
  rw [hs, List.nil_append] at D
  have e1 := e1 (D.ρ ++ D.ρc) D.ω D.φ
  have hsim := D.sim D.ρc [] [] t1
  simp only [List.append_nil] at hsim
  refine ⟨ρ1 ++ (D.ρ ++ D.ρc), ω1 ++ D.ω, φ1 ++ D.φ,
    .init ⟨⟨p.inbound, ⟨p.sess.1, p.sess.2, D.ρ ++ D.ρc⟩, p.state⟩, ⟨p.outbound, ⟨D.ω, D.φ, t1⟩⟩⟩ sh rec, D.ls', D.hm.on D.ρc,
    t1 ++ D.t, ?_, hsim, fun hidle => ?_, D.labels.1, D.labels.2, ?_, ?_⟩
  · simp only [AsyncShapedSys.new, hsh, AsyncProtocol.new, e1, hst]
  · obtain ⟨h1, h2⟩ := D.mid.2 hidle
    rw [h2]
    exact h1 []
  · rw [D.answers]
    show p.run.answers ++ _ = _
    rw [g1]
    simp only [List.append_assoc]
  · rw [D.sent]
    show p.run.sent ++ _ = _
    rw [s1, List.append_assoc]

/-- C69, threads, spelt out for a transport that takes what is written, at whatever times it likes: no thread ever panics;
everything that it gave is the handshake of BIP-324, the packets of what `read` returned and what is not used yet; and when no
thread is writing, all writes that returned were successful, and everything that it took is our handshake and packets that
every peer reads as exactly the payloads of these writes, in order, with decoys in between. -/
theorem C69_connection_threads (hP : Lawful P) {N : Conn σ} (hN : N.Keeps) (hT : N.Takes true) {magic rng : Bytes} {role : Role}
    {config : TrafficConfig} {gen : R.State} {r r1 : ConnRun σ} {s0 s : ShapedN σ R}
    (hnew : ShapedN.new fuel N P prof magic role rng config gen r = some (r1, .ok s0)) {ls : List (ShapedLabel σ SysLabel)}
    (hs : s0.runs N P prof ls = s) (hlen : s.run.got.length < r.got.length + 2 ^ 35) (hk : ls.length < 2 ^ 30)
    (hr : ∀ x ∈ s.sys.reads, ∃ q, x = .ok q) (hu : ∀ q, .sys (.call q) ∈ ls → Usable q) :
    s.sys.poisoned = false ∧ s.sys.bg ≠ .panicked ∧ (∀ x ∈ s.sys.returned, x.2 ≠ .panic) ∧
    ∃ peerKey garbage decoys version ms unread,
      let D := Spec.directions P magic (P.ellswift rng) peerKey rng role.initiating
      Spec.Admissible magic D.2.2.2 peerKey garbage decoys version ∧
      s.run.got = r.got ++ (Spec.peerTranscript P D.2 peerKey garbage decoys version ++
        Spec.packetStream P D.2.1 D.2.2.1 (decoys.length + 1) [] ms ++ unread) ∧
      s.sys.reads = ms.map (fun m => .ok (delivered m)) ∧
      (s.half.pc = .idle → unread = if s.half.sess.2 then [] else s.half.sess.1) ∧
      (s.sys.owner = none →
        (∀ x ∈ s.sys.returned, x.2 = .ok ()) ∧ s.sys.called = s.sys.returned.map (·.1) ++ s.sys.app.inflight ∧
        ∃ g dec o taken, g.length ≤ 4095 ∧ dec.length ≤ 3 ∧ o.At P D.1.1 D.1.2.1 (dec.length + 1) ∧
          s.run.sent = r.sent ++ (Spec.ownTranscript P D.1 (P.ellswift rng) g dec ++ taken) ∧
          ReadAs P prof o taken (s.sys.returned.map (·.1))) := by
  obtain ⟨sh, g, dec, rec, p, hsh, hn, rfl⟩ := shapedNew hnew
  obtain ⟨ρ1, ω1, φ1, t1, log, e1, g1, s1⟩ := syncNew_script hN hn
  obtain ⟨D⟩ := ShapedN.Done.runs (P := P) (prof := prof) (N := N) (hN := hN) ls
    (ShapedN.Done.init (s0 := ⟨.init ⟨⟨p.inbound, ⟨p.sess.1, p.sess.2, []⟩⟩, ⟨p.outbound, ⟨[], [], []⟩⟩⟩ sh rec,
      ⟨p.inbound, p.sess, .idle⟩, p.run⟩) rfl)
  rw [hs, List.nil_append] at D
  obtain ⟨hg, hdec, -⟩ := C37_handshake hsh
  have e1 := e1 (D.ρ ++ D.ρc) D.ω D.φ
  have hsim := D.sim D.ρc [] [] t1
  simp only [List.append_nil] at hsim
  have hl := D.labels
  have hans : s.run.answers = r.answers ++ (ρ1 ++ (D.ρ ++ D.ρc)) := by
    rw [D.answers]
    show p.run.answers ++ _ = _
    rw [g1]
    simp only [List.append_assoc]
  have hgot := ConnRun.got_of hans
  have hlen' : (ρ1 ++ (D.ρ ++ D.ρc)).bytes.length < 2 ^ 35 := by
    have := congrArg List.length hgot
    simp only [List.length_append] at this
    omega
  obtain ⟨xs, hx1, hcount, hx2⟩ := D.reads
  have hx1 : s.sys.reads = xs := hx1
  subst hx1
  have hrd := hx2 D.ρc
  rw [callMany_readMany] at hrd
  -- what the script says
  generalize hq : ShapedSys.init (R := R) ⟨⟨p.inbound, ⟨p.sess.1, p.sess.2, D.ρ ++ D.ρc⟩⟩, ⟨p.outbound, ⟨D.ω, D.φ, t1⟩⟩⟩ sh rec = q0
  have hsim : q0.run P prof D.ls' = s.sys.over ⟨D.hm.on D.ρc, s.sys.reader.recorded⟩ s.sys.reads ⟨[], [], t1 ++ D.t⟩ := by
    rw [← hq]; exact hsim
  have h0 : q0.Fresh := by rw [← hq]; exact ShapedSys.init_fresh _ _ _
  obtain ⟨peerKey, garbage, decoys, version, ms, b1, b2, b3, b4, b5⟩ :=
    sync_got hP (by omega) e1 hlen' (k := s.sys.reads.length) (by omega) hrd hr
  have hat : OutboundCipher.At P (Spec.directions P magic (P.ellswift rng) peerKey rng role.initiating).1.1
      (Spec.directions P magic (P.ellswift rng) peerKey rng role.initiating).1.2.1 ((dec.getD []).length + 1)
      q0.ws.writer.cipher := by rw [← hq]; exact b4
  obtain ⟨n1, n2, n3⟩ := C36_no_panic (prof := prof) hP h0 hat D.ls' (by omega) (fun q hq => hu q (hl.2 _ hq (by simp)))
  have hrel : q0.ws.writer.writer.Reliable true := by rw [← hq]; exact D.took hT
  have hth := C36_threads (prof := prof) hP h0 hrel D.ls'
  rw [hsim] at n1 n2 n3 hth
  refine ⟨n1, n2, n3, peerKey, garbage, decoys, version, ms, _, b1, by rw [hgot, b2], b3, fun hidle => ?_, fun hfree => ?_⟩
  · obtain ⟨h1, h2⟩ := D.mid.2 hidle
    rw [h2]
    have h1 : D.hm.on [] = s.half.on [] := h1 []
    rw [h1, syncHalf_bytes]
  · obtain ⟨h1, h2, taken, h3, h4⟩ := hth hfree n1
    refine ⟨h1, h2, g.getD [], dec.getD [], _, taken, hg, hdec, hat, ?_, h4⟩
    rw [D.sent]
    show p.run.sent ++ _ = _
    have h3 : t1 ++ D.t = q0.ws.writer.writer.out ++ taken := h3
    rw [← hq] at h3
    have h3 : t1 ++ D.t = t1 ++ taken := h3
    rw [s1, List.append_assoc, h3, b5]

/-- C69, task, spelt out: likewise, whenever the task waits for something to do. -/
theorem C69_connection_task (hP : Lawful P) {N : PollConn σ} (hN : N.Keeps) (hT : N.toConn.Takes false) {magic rng : Bytes}
    {role : Role} {config : TrafficConfig} {gen : R.State} {r r1 : ConnRun σ} {s0 s : AsyncShapedN σ R}
    (hnew : AsyncShapedN.new fuel N P prof magic role rng config gen r = some (r1, .ok s0))
    {ls : List (ShapedLabel σ AsyncLabel)} (hs : s0.runs N P prof ls = s) (hlen : s.run.got.length < r.got.length + 2 ^ 35)
    (hk : ls.length < 2 ^ 30) (hu : ∀ q, .sys (.call q) ∈ ls → Usable q) :
    s.sys.task ≠ .panicked ∧
    ∃ peerKey garbage decoys version ms held unread,
      let D := Spec.directions P magic (P.ellswift rng) peerKey rng role.initiating
      Spec.Admissible magic D.2.2.2 peerKey garbage decoys version ∧
      s.run.got = r.got ++ (Spec.peerTranscript P D.2 peerKey garbage decoys version ++
        Spec.packetStream P D.2.1 D.2.2.1 (decoys.length + 1) [] ms ++ held ++ unread) ∧
      payloads (readyOf s.sys.reads) = ms.map delivered ∧ (∀ x ∈ readyOf s.sys.reads, x ≠ .panic) ∧
      held.length < 2 ^ 24 + 20 ∧ (s.half.busy = false → unread = s.half.sess.1.drop s.half.sess.2) ∧
      ∀ a b, s.sys.task = .select a b →
        ∃ written g dec o taken, s.sys.called = written ++ s.sys.queue.map (·.payload) ∧
          (s.sys.returned.map (·.1)).Sublist written ∧ (∀ x ∈ s.sys.returned, x.2 = .ok ()) ∧
          g.length ≤ 4095 ∧ dec.length ≤ 3 ∧ o.At P D.1.1 D.1.2.1 (dec.length + 1) ∧
          s.run.sent = r.sent ++ (Spec.ownTranscript P D.1 (P.ellswift rng) g dec ++ taken) ∧
          ReadAs P prof o taken written := by
  obtain ⟨sh, g, dec, rec, p, hsh, hn, rfl⟩ := asyncShapedNew hnew
  obtain ⟨hst, ρ1, ω1, φ1, t1, log, e1, g1, s1⟩ := asyncNew_script hN hn
  obtain ⟨D⟩ := AsyncShapedN.Done.runs (P := P) (prof := prof) (N := N) (hN := hN) ls
    (AsyncShapedN.Done.init (s0 := ⟨.init ⟨⟨p.inbound, ⟨p.sess.1, p.sess.2, []⟩, p.state⟩, ⟨p.outbound, ⟨[], [], []⟩⟩⟩ sh rec,
      ⟨p.inbound, p.sess, p.state, false⟩, p.run⟩) rfl)
  rw [hs, List.nil_append] at D
  obtain ⟨hg, hdec, -⟩ := C37_handshake hsh
  have e1 := e1 (D.ρ ++ D.ρc) D.ω D.φ
  have hsim := D.sim D.ρc [] [] t1
  simp only [List.append_nil] at hsim
  have hl := D.labels
  have hans : s.run.answers = r.answers ++ (ρ1 ++ (D.ρ ++ D.ρc)) := by
    rw [D.answers]
    show p.run.answers ++ _ = _
    rw [g1]
    simp only [List.append_assoc]
  have hgot := ConnRun.got_of hans
  have hlen' : (ρ1 ++ (D.ρ ++ D.ρc)).bytes.length < 2 ^ 35 := by
    have := congrArg List.length hgot
    simp only [List.length_append] at this
    omega
  obtain ⟨xs, hx1, hcount, hx2⟩ := D.reads
  have hx1 : s.sys.reads = xs := hx1
  subst hx1
  have hrd : callMany (AsyncReader.poll P prof) s.sys.reads.length
      ⟨p.inbound, ⟨p.sess.1, p.sess.2, D.ρ ++ D.ρc⟩, .initReadingLength⟩ = (D.hm.on D.ρc, s.sys.reads) := by
    rw [← hst]
    exact hx2 D.ρc
  -- what the script says
  generalize hq : AsyncShapedSys.init (R := R) ⟨⟨p.inbound, ⟨p.sess.1, p.sess.2, D.ρ ++ D.ρc⟩, p.state⟩,
    ⟨p.outbound, ⟨D.ω, D.φ, t1⟩⟩⟩ sh rec = q0
  have hsim : q0.run P prof D.ls' = s.sys.over ⟨D.hm.on D.ρc, s.sys.reader.recorded⟩ s.sys.reads ⟨[], [], t1 ++ D.t⟩ := by
    rw [← hq]; exact hsim
  have h0 : q0.Fresh := by rw [← hq]; exact AsyncShapedSys.init_fresh _ _ _
  obtain ⟨peerKey, garbage, decoys, version, ms, held, b1, b2, b3, b6, b7, b4, b5⟩ :=
    async_got hP (by omega) e1 hlen' (k := s.sys.reads.length) (by omega) hrd
  have hat : OutboundCipher.At P (Spec.directions P magic (P.ellswift rng) peerKey rng role.initiating).1.1
      (Spec.directions P magic (P.ellswift rng) peerKey rng role.initiating).1.2.1 ((dec.getD []).length + 1)
      q0.ws.writer.cipher := by rw [← hq]; exact b4
  have n1 := C36_task_no_panic (prof := prof) hP h0 hat D.ls' (by omega) (fun q hq => hu q (hl.2 _ hq (by simp)))
  have hrel : q0.ws.writer.writer.Reliable false := by rw [← hq]; exact D.took hT
  have hth := fun a b => C36_task (prof := prof) hP h0 hrel D.ls' (a := a) (b := b)
  rw [hsim] at n1 hth
  refine ⟨n1, peerKey, garbage, decoys, version, ms, held, _, b1, by rw [hgot, b2], b3, b7, b6, fun hidle => ?_, fun a b hw => ?_⟩
  · obtain ⟨h1, h2⟩ := D.mid.2 hidle
    rw [h2]
    have h1 : D.hm.on [] = s.half.on [] := h1 []
    rw [h1]
    simp [AsyncHalf.on, AsyncSession.remaining, Source.bytes]
  · obtain ⟨written, h1, h2, h5, taken, h3, h4⟩ := hth a b hw
    refine ⟨written, g.getD [], dec.getD [], _, taken, h1, h2, h5, hg, hdec, hat, ?_, h4⟩
    rw [D.sent]
    show p.run.sent ++ _ = _
    have h3 : t1 ++ D.t = q0.ws.writer.writer.out ++ taken := h3
    rw [← hq] at h3
    have h3 : t1 ++ D.t = t1 ++ taken := h3
    rw [s1, List.append_assoc, h3, b5]

/-! ## Non-vacuity -/

theorem samplePeer_takes (retry : Bool) : samplePeer.toConn.Takes retry := by
  refine ⟨fun s b s' x hb h => ?_, fun s s' x h => ?_⟩
  · simp only [samplePeer, Option.some.injEq, Prod.mk.injEq] at h
    obtain ⟨-, rfl⟩ := h
    cases b with
    | nil => exact absurd rfl hb
    | cons a b => exact .inl ⟨(b.take 6).length, by simp⟩
  · simp only [samplePeer, Option.some.injEq, Prod.mk.injEq] at h
    exact h.2.symm

/-- A read begins first, and is answered only because the write that begins after it goes on. -/
def halvesSample : List (HalvesLabel (Bytes × Nat)) :=
  [.read, .reading, .write (.genuine [4, 5, 6]), .reading, .writing, .reading, .writing, .writing, .write (.genuine [1]),
    .writing, .reading, .writing] ++ List.replicate 6 .reading ++ [.writing, .writing, .writing, .read, .reading, .write (.genuine [7]),
    .writing, .writing, .cancel]

example : (match SyncN.new 200 samplePeer.toConn toy .debug (leBytes 4 7) .initiator (leBytes 32 3) none none
      ⟨([], 0), [], []⟩ with
    | some (_, .ok p) =>
      let d := p.split.runs (syncHalf samplePeer.toConn toy .debug) .sync samplePeer.toConn toy .debug halvesSample
      d.reads == [.ok (.decrypted (0 :: (d.run.sent.drop 100).take 2))] && d.wrote.length == 1 && d.wr.isSome &&
        d.run.sent.length == 130 && d.half.pc != .idle
    | _ => false) = true := by decide +kernel

/-- Asynchronously the second write is dropped half way. -/
example : (match AsyncN.new 200 samplePeer toy .debug (leBytes 4 7) .initiator (leBytes 32 3) none none
      ⟨([], 0), [], []⟩ with
    | some (_, .ok p) =>
      let d := p.split.runs (asyncHalf samplePeer toy .debug) .async samplePeer.toConn toy .debug
        (halvesSample ++ halvesSample)
      readyOf d.reads == [.ok (.decrypted (0 :: (d.run.sent.drop 100).take 2))] && d.reads.length == 3 && d.wrote.length == 4 &&
        d.wr.isNone && d.run.sent.length == 160
    | _ => false) = true := by decide +kernel

/-- The decoy thread sends a decoy while the application writes and reads. -/
def threadsSample : List (ShapedLabel (Bytes × Nat) SysLabel) :=
  [.sys .read, .reading, .sys (.call (.genuine [4, 5, 6])), .sys .bg, .sys .bg, .sys .bg, .sys .app] ++
    (List.replicate 12 [.sys .bg, .sys .app, .reading, .reading]).flatten ++ List.replicate 10 (.sys .app)

example : (match ShapedN.new (R := listRng) 200 samplePeer.toConn toy .debug (leBytes 4 7) .initiator (leBytes 32 3)
      ⟨.disabled, .random⟩ [0, 99, 3] ⟨([], 0), [], []⟩ with
    | some (_, .ok s0) =>
      let s := s0.runs samplePeer.toConn toy .debug threadsSample
      s.sys.reads == [.ok (.decrypted (0 :: (s.run.sent.drop 100).take 2))] && s.sys.returned == [(.genuine [4, 5, 6], .ok ())] &&
        s.run.sent.length == 146 && s.sys.owner == none && s.half.pc == .idle
    | _ => false) = true := by decide +kernel

/-- The same with a task. -/
def taskSample : List (ShapedLabel (Bytes × Nat) AsyncLabel) :=
  [.sys .read, .reading, .sys (.call (.genuine [4, 5, 6])), .sys .tick, .sys .task, .sys .task] ++
    (List.replicate 9 [.sys .task, .sys .recv, .sys .resume, .sys .read, .reading, .reading]).flatten ++ List.replicate 9 (.sys .task) ++
    [.sys .resume]

example : (match AsyncShapedN.new (R := listRng) 200 samplePeer toy .debug (leBytes 4 7) .initiator (leBytes 32 3)
      ⟨.disabled, .random⟩ [0, 99, 3] ⟨([], 0), [], []⟩ with
    | some (_, .ok s0) =>
      let s := s0.runs samplePeer toy .debug taskSample
      readyOf s.sys.reads == [.ok (.decrypted (0 :: (s.run.sent.drop 100).take 2))] &&
        s.sys.returned == [(.genuine [4, 5, 6], .ok ())] && s.run.sent.length == 146 && s.sys.task == .select false false
    | _ => false) = true := by decide +kernel

end Bip324
