import Verif.Spec.Judge
import Verif.Lemmas.Reference
import Verif.Lemmas.HandshakeAccept

/-!
# The verdict on any stream: lemmas for C62
-/

namespace Bip324

open Ref (raw_take raw_drop raw_not_forged raw_unique)

variable {P : Prims} {prof : Profile}

/-! ## One verdict at most -/

theorem announces_inj {kL : Bytes} {n : Nat} {bs : Bytes} {len len' : Nat} (h : Spec.Announces P kL n bs len)
    (h' : Spec.Announces P kL n bs len') : len = len' :=
  lengthBytes_inj h.1 h'.1 (h.2.symm.trans h'.2)

theorem raw_announces {kL kP : Bytes} {n : Nat} {header : UInt8} {aad contents rest : Bytes}
    (hc : contents.length < 2 ^ 24) :
    Spec.Announces P kL n (Spec.rawPacket P kL kP n header aad contents ++ rest) contents.length :=
  ⟨hc, raw_take kL kP n header aad contents rest⟩

theorem raw_enough (hP : Lawful P) (kL kP : Bytes) (n : Nat) (header : UInt8) (aad contents rest : Bytes) :
    contents.length + 20 ≤ (Spec.rawPacket P kL kP n header aad contents ++ rest).length := by
  rw [List.length_append, rawPacket_length hP]; omega

theorem announces_length {kL : Bytes} {n : Nat} {bs : Bytes} {len : Nat} (h : Spec.Announces P kL n bs len) :
    3 ≤ bs.length := by
  have := congrArg List.length h.2
  rw [lengthBytes_length, List.length_take] at this
  omega

theorem incomplete_tooLong {longest : Nat} {kL : Bytes} {n : Nat} {bs : Bytes}
    (h : Spec.Incomplete P longest kL n bs) (h' : Spec.TooLong P longest kL n bs) : False := by
  obtain ⟨len', ha', hl'⟩ := h'
  rcases h with h | ⟨len, ha, hl, -⟩
  · have := announces_length ha'; omega
  · have := announces_inj ha ha'; omega

theorem incomplete_notSealed {longest : Nat} {kL kP : Bytes} {n : Nat} {aad bs : Bytes}
    (h : Spec.Incomplete P longest kL n bs) (h' : Spec.NotSealed P longest kL kP n aad bs) : False := by
  obtain ⟨len', ha', hl', he', -⟩ := h'
  rcases h with h | ⟨len, ha, hl, he⟩
  · omega
  · have := announces_inj ha ha'; omega

theorem tooLong_notSealed {longest : Nat} {kL kP : Bytes} {n : Nat} {aad bs : Bytes}
    (h : Spec.TooLong P longest kL n bs) (h' : Spec.NotSealed P longest kL kP n aad bs) : False := by
  obtain ⟨len', ha', hl', he', -⟩ := h'
  obtain ⟨len, ha, hl⟩ := h
  have := announces_inj ha ha'; omega

theorem incomplete_raw (hP : Lawful P) {longest : Nat} {kL kP : Bytes} {n : Nat} {header : UInt8}
    {aad contents rest : Bytes} (hc : contents.length < 2 ^ 24)
    (h : Spec.Incomplete P longest kL n (Spec.rawPacket P kL kP n header aad contents ++ rest)) : False := by
  have h1 := raw_announces (P := P) (kL := kL) (kP := kP) (n := n) (header := header) (aad := aad) (rest := rest) hc
  have h2 := raw_enough hP kL kP n header aad contents rest
  rcases h with h | ⟨len, ha, hl, he⟩
  · omega
  · have := announces_inj ha h1; omega

theorem tooLong_raw {longest : Nat} {kL kP : Bytes} {n : Nat} {header : UInt8}
    {aad contents rest : Bytes} (hc : contents.length < 2 ^ 24) (hcl : contents.length ≤ longest)
    (h : Spec.TooLong P longest kL n (Spec.rawPacket P kL kP n header aad contents ++ rest)) : False := by
  have h1 := raw_announces (P := P) (kL := kL) (kP := kP) (n := n) (header := header) (aad := aad) (rest := rest) hc
  obtain ⟨len, ha, hl⟩ := h
  have := announces_inj ha h1; omega

theorem notSealed_raw (hP : Lawful P) {longest : Nat} {kL kP : Bytes} {n : Nat} {header : UInt8}
    {aad contents rest : Bytes} (hc : contents.length < 2 ^ 24)
    (h : Spec.NotSealed P longest kL kP n aad (Spec.rawPacket P kL kP n header aad contents ++ rest)) : False := by
  obtain ⟨len, ha, hl, he, hno⟩ := h
  exact raw_not_forged hP hc ⟨len, ha.1, ha.2, he, hno⟩

theorem JudgePackets.inv {r : Spec.Rules} {kL kP : Bytes} {n : Nat} {aad bs : Bytes} {v : Spec.Verdict}
    (h : Spec.JudgePackets r P kL kP n aad bs v) :
    (v = .waits ∧ Spec.Incomplete P r.longest kL n bs) ∨ (v = .tooBig ∧ Spec.TooLong P r.longest kL n bs) ∨
    (v = .forged ∧ Spec.NotSealed P r.longest kL kP n aad bs) ∨
    ∃ header contents rest, contents.length ≤ r.longest ∧ contents.length < 2 ^ 24 ∧
      bs = Spec.rawPacket P kL kP n header aad contents ++ rest ∧
      ((r.decoy header = true ∧ Spec.JudgePackets r P kL kP (n + 1) [] rest v) ∨
       (r.decoy header = false ∧ v = .complete (n + 1) rest)) := by
  cases h with
  | waits h => exact .inl ⟨rfl, h⟩
  | tooBig h => exact .inr (.inl ⟨rfl, h⟩)
  | forged h => exact .inr (.inr (.inl ⟨rfl, h⟩))
  | decoy h1 h2 h3 h4 => exact .inr (.inr (.inr ⟨_, _, _, h2, h3, rfl, .inl ⟨h1, h4⟩⟩))
  | version h1 h2 h3 => exact .inr (.inr (.inr ⟨_, _, _, h2, h3, rfl, .inr ⟨h1, rfl⟩⟩))

theorem judgePackets_unique (hP : Lawful P) {r : Spec.Rules} {kL kP : Bytes} {n : Nat} {aad bs : Bytes}
    {v v' : Spec.Verdict} (h : Spec.JudgePackets r P kL kP n aad bs v)
    (h' : Spec.JudgePackets r P kL kP n aad bs v') : v = v' := by
  induction h with
  | waits h =>
    rcases JudgePackets.inv h' with ⟨rfl, -⟩ | ⟨-, h2⟩ | ⟨-, h2⟩ | ⟨_, _, _, -, h2, rfl, -⟩
    · rfl
    · exact (incomplete_tooLong h h2).elim
    · exact (incomplete_notSealed h h2).elim
    · exact (incomplete_raw hP h2 h).elim
  | tooBig h =>
    rcases JudgePackets.inv h' with ⟨-, h2⟩ | ⟨rfl, -⟩ | ⟨-, h2⟩ | ⟨_, _, _, h1, h2, rfl, -⟩
    · exact (incomplete_tooLong h2 h).elim
    · rfl
    · exact (tooLong_notSealed h h2).elim
    · exact (tooLong_raw h2 h1 h).elim
  | forged h =>
    rcases JudgePackets.inv h' with ⟨-, h2⟩ | ⟨-, h2⟩ | ⟨rfl, -⟩ | ⟨_, _, _, h1, h2, rfl, -⟩
    · exact (incomplete_notSealed h2 h).elim
    · exact (tooLong_notSealed h2 h).elim
    · rfl
    · exact (notSealed_raw hP h2 h).elim
  | decoy h1 h2 h3 h4 ih =>
    rcases JudgePackets.inv h' with ⟨-, x⟩ | ⟨-, x⟩ | ⟨-, x⟩ | ⟨_, _, _, a, b, c, d⟩
    · exact (incomplete_raw hP h3 x).elim
    · exact (tooLong_raw h3 h2 x).elim
    · exact (notSealed_raw hP h3 x).elim
    · obtain ⟨rfl, rfl, rfl⟩ := raw_unique hP h3 b c
      rcases d with ⟨-, d⟩ | ⟨d, -⟩
      · exact ih d
      · rw [h1] at d; cases d
  | version h1 h2 h3 =>
    rcases JudgePackets.inv h' with ⟨-, x⟩ | ⟨-, x⟩ | ⟨-, x⟩ | ⟨_, _, _, a, b, c, d⟩
    · exact (incomplete_raw hP h3 x).elim
    · exact (tooLong_raw h3 h2 x).elim
    · exact (notSealed_raw hP h3 x).elim
    · obtain ⟨rfl, rfl, rfl⟩ := raw_unique hP h3 b c
      rcases d with ⟨d, -⟩ | ⟨-, d⟩
      · rw [h1] at d; cases d
      · exact d.symm

theorem Judge.inv {r : Spec.Rules} {keys : Bytes × Bytes × Bytes} {bs : Bytes} {v : Spec.Verdict}
    (h : Spec.Judge r P keys bs v) :
    (v = .waits ∧ (∀ j, ¬ Spec.OccursAt keys.2.2 bs j) ∧ bs.length < r.patience) ∨
    (v = .noTerminator ∧ (∀ j ≤ 4095, ¬ Spec.OccursAt keys.2.2 bs j) ∧ r.patience ≤ bs.length) ∨
    ∃ g rest, g.length ≤ 4095 ∧ (∀ j < g.length, ¬ Spec.OccursAt keys.2.2 (g ++ keys.2.2) j) ∧
      bs = g ++ keys.2.2 ++ rest ∧ Spec.JudgePackets r P keys.1 keys.2.1 0 g rest v := by
  cases h with
  | waits h1 h2 => exact .inl ⟨rfl, h1, h2⟩
  | noTerminator h1 h2 => exact .inr (.inl ⟨rfl, h1, h2⟩)
  | garbage h1 h2 h3 => exact .inr (.inr ⟨_, _, h1, h2, rfl, h3⟩)

/-- The terminator is where it is. -/
theorem occurs_garbage (t g rest : Bytes) : Spec.OccursAt t (g ++ t ++ rest) g.length :=
  ⟨g, rest, rfl, rfl⟩

/-- The first terminator is unique. -/
theorem garbage_unique {t g g' rest rest' : Bytes} (he : g ++ t ++ rest = g' ++ t ++ rest')
    (h : ∀ j < g.length, ¬ Spec.OccursAt t (g ++ t) j) (h' : ∀ j < g'.length, ¬ Spec.OccursAt t (g' ++ t) j) :
    g = g' ∧ rest = rest' := by
  have key : ∀ {g g' rest rest' : Bytes}, g ++ t ++ rest = g' ++ t ++ rest' →
      (∀ j < g'.length, ¬ Spec.OccursAt t (g' ++ t) j) → g'.length ≤ g.length := by
    intro g g' rest rest' he h'
    refine Nat.le_of_not_lt fun hlt => h' g.length hlt ?_
    have ho : Spec.OccursAt t (g' ++ t ++ rest') g.length := by rw [← he]; exact occurs_garbage t g rest
    exact occursAt_of_append ho (by rw [List.length_append]; omega)
  have hl : g.length = g'.length := Nat.le_antisymm (key he.symm h) (key he h')
  rw [List.append_assoc, List.append_assoc] at he
  obtain ⟨e1, e2⟩ := List.append_inj he hl
  exact ⟨e1, List.append_cancel_left e2⟩

theorem judge_unique (hP : Lawful P) {r : Spec.Rules} {keys : Bytes × Bytes × Bytes} {bs : Bytes}
    {v v' : Spec.Verdict} (h : Spec.Judge r P keys bs v) (h' : Spec.Judge r P keys bs v') : v = v' := by
  rcases Judge.inv h with ⟨rfl, a, b⟩ | ⟨rfl, a, b⟩ | ⟨g, rest, a, b, c, d⟩ <;>
  rcases Judge.inv h' with ⟨rfl, a', b'⟩ | ⟨rfl, a', b'⟩ | ⟨g', rest', a', b', c', d'⟩
  · rfl
  · omega
  · subst c'; exact absurd (occurs_garbage _ _ _) (a _)
  · omega
  · rfl
  · subst c'; exact absurd (occurs_garbage _ _ _) (a _ a')
  · subst c; exact absurd (occurs_garbage _ _ _) (a' _)
  · subst c; exact absurd (occurs_garbage _ _ _) (a' _ a)
  · subst c
    obtain ⟨rfl, rfl⟩ := garbage_unique c' b b'
    exact judgePackets_unique hP d d'

theorem JudgeSession.inv {longest : Nat} {kL kP : Bytes} {n : Nat} {bs : Bytes} {ms : List (UInt8 × Bytes)}
    {v : Spec.Verdict} (h : Spec.JudgeSession longest P kL kP n bs ms v) :
    (v = .waits ∧ ms = [] ∧ Spec.Incomplete P (2 ^ 24 - 1) kL n bs) ∨
    (v = .tooBig ∧ ms = [] ∧ ∃ len, Spec.Announces P kL n bs len ∧ longest < len ∧ len + 20 ≤ bs.length) ∨
    (v = .forged ∧ ms = [] ∧ Spec.NotSealed P longest kL kP n [] bs) ∨
    ∃ header contents rest ms', contents.length ≤ longest ∧ contents.length < 2 ^ 24 ∧
      bs = Spec.rawPacket P kL kP n header [] contents ++ rest ∧ ms = (header, contents) :: ms' ∧
      Spec.JudgeSession longest P kL kP (n + 1) rest ms' v := by
  cases h with
  | waits h => exact .inl ⟨rfl, rfl, h⟩
  | tooBig h1 h2 h3 => exact .inr (.inl ⟨rfl, rfl, _, h1, h2, h3⟩)
  | forged h => exact .inr (.inr (.inl ⟨rfl, rfl, h⟩))
  | message h1 h2 h3 => exact .inr (.inr (.inr ⟨_, _, _, _, h1, h2, rfl, rfl, h3⟩))

theorem incomplete_enough {longest : Nat} {kL : Bytes} {n len : Nat} {bs : Bytes}
    (h : Spec.Incomplete P longest kL n bs) (ha : Spec.Announces P kL n bs len) (hl : len + 20 ≤ bs.length) :
    False := by
  rcases h with h | ⟨len', ha', -, h⟩
  · omega
  · have := announces_inj ha ha'; omega

theorem judgeSession_unique (hP : Lawful P) {longest : Nat} {kL kP : Bytes} {n : Nat} {bs : Bytes}
    {ms ms' : List (UInt8 × Bytes)} {v v' : Spec.Verdict} (h : Spec.JudgeSession longest P kL kP n bs ms v)
    (h' : Spec.JudgeSession longest P kL kP n bs ms' v') : ms = ms' ∧ v = v' := by
  induction h generalizing ms' v' with
  | waits h =>
    rcases JudgeSession.inv h' with ⟨rfl, rfl, -⟩ | ⟨-, -, len, x, -, y⟩ | ⟨-, -, len, x, -, y, -⟩ | ⟨_, _, _, _, -, x, rfl, -⟩
    · exact ⟨rfl, rfl⟩
    · exact (incomplete_enough h x y).elim
    · exact (incomplete_enough h x y).elim
    · exact (incomplete_raw hP x h).elim
  | tooBig h1 h2 h3 =>
    rcases JudgeSession.inv h' with ⟨-, -, x⟩ | ⟨rfl, rfl, -⟩ | ⟨-, -, len, x, y, -⟩ | ⟨_, _, _, _, y, x, rfl, -⟩
    · exact (incomplete_enough x h1 h3).elim
    · exact ⟨rfl, rfl⟩
    · have := announces_inj x h1; omega
    · have := announces_inj (raw_announces x) h1; omega
  | forged h =>
    rcases JudgeSession.inv h' with ⟨-, -, x⟩ | ⟨-, -, len, x, y, -⟩ | ⟨rfl, rfl, -⟩ | ⟨_, _, _, _, y, x, rfl, -⟩
    · obtain ⟨len, a, -, b, -⟩ := h
      exact (incomplete_enough x a b).elim
    · obtain ⟨len', a, b, -⟩ := h
      have := announces_inj x a; omega
    · exact ⟨rfl, rfl⟩
    · exact (notSealed_raw hP x h).elim
  | message h1 h2 h3 ih =>
    rcases JudgeSession.inv h' with ⟨-, -, x⟩ | ⟨-, -, len, x, y, -⟩ | ⟨-, -, x⟩ | ⟨_, _, _, _, y, x, c, rfl, d⟩
    · exact (incomplete_raw hP h2 x).elim
    · have := announces_inj x (raw_announces h2); omega
    · exact (notSealed_raw hP h2 x).elim
    · obtain ⟨rfl, rfl, rfl⟩ := raw_unique hP h2 x c
      obtain ⟨rfl, rfl⟩ := ih d
      exact ⟨rfl, rfl⟩

/-! ## Two receivers -/

theorem packetStream_one (kL kP : Bytes) (n : Nat) (aad : Bytes) (m : UInt8 × Bytes) (ms : List (UInt8 × Bytes)) :
    Spec.packetStream P kL kP n aad (m :: ms)
      = Spec.rawPacket P kL kP n m.1 aad m.2 ++ Spec.packetStream P kL kP (n + 1) [] ms := rfl

/-- After the terminator: the first packet at which a receiver parts from BIP-324. -/
def PacketsDiverge (r : Spec.Rules) (P : Prims) (kL kP : Bytes) (n : Nat) (aad bs : Bytes) : Prop :=
  ∃ decoys rest, (∀ d ∈ decoys, r.decoy d.1 = true ∧ d.2.length ≤ r.longest ∧ d.2.length < 2 ^ 24) ∧
    bs = Spec.packetStream P kL kP n aad decoys ++ rest ∧
    (Spec.TooLong P r.longest kL (n + decoys.length) rest ∨
      ∃ header contents more, header &&& 0x80 ≠ 0 ∧ r.decoy header = false ∧ contents.length ≤ r.longest ∧
        contents.length < 2 ^ 24 ∧
        rest = Spec.rawPacket P kL kP (n + decoys.length) header (if decoys = [] then aad else []) contents ++ more)

theorem PacketsDiverge.cons {r : Spec.Rules} {kL kP : Bytes} {n : Nat} {aad : Bytes} {header : UInt8}
    {contents rest : Bytes} (h1 : r.decoy header = true) (h2 : contents.length ≤ r.longest)
    (h3 : contents.length < 2 ^ 24) (h : PacketsDiverge r P kL kP (n + 1) [] rest) :
    PacketsDiverge r P kL kP n aad (Spec.rawPacket P kL kP n header aad contents ++ rest) := by
  obtain ⟨ds, more, a, rfl, c⟩ := h
  refine ⟨(header, contents) :: ds, more, ?_, ?_, ?_⟩
  · intro d hd
    rcases List.mem_cons.1 hd with rfl | hd
    · exact ⟨h1, h2, h3⟩
    · exact a d hd
  · rw [packetStream_one, List.append_assoc]
  · rw [List.length_cons, show n + (ds.length + 1) = n + 1 + ds.length by omega, if_neg (by simp)]
    simpa using c

/-- The rules of a receiver that takes at most what BIP-324 takes, and takes for decoys only decoys. -/
structure Stricter (r : Spec.Rules) : Prop where
  longest : r.longest < 2 ^ 24
  decoy : ∀ h, r.decoy h = true → h &&& 0x80 ≠ 0
  patience : r.patience ≤ 4112
  garbage : 4111 ≤ r.patience

theorem bip_decoy (h : UInt8) : Spec.bipRules.decoy h = true ↔ h &&& 0x80 ≠ 0 := by
  simp [Spec.bipRules]

/-- BIP-324 needs at least as long as the next number. -/
theorem judgePackets_next {r : Spec.Rules} {kL kP : Bytes} {n : Nat} {aad bs : Bytes} {v : Spec.Verdict}
    (h : Spec.JudgePackets r P kL kP n aad bs v) : ∀ m rest, v = .complete m rest → n < m := by
  induction h with
  | waits | tooBig | forged => intro m rest he; cases he
  | decoy _ _ _ _ ih => intro m rest he; have := ih m rest he; omega
  | version => intro m rest he; injection he; omega

/-- BIP-324 takes every length. -/
theorem judgePackets_bip {kL kP : Bytes} {n : Nat} {aad bs : Bytes} {v : Spec.Verdict}
    (h : Spec.JudgePackets Spec.bipRules P kL kP n aad bs v) : v ≠ .tooBig ∧ v ≠ .noTerminator := by
  induction h with
  | tooBig h =>
    obtain ⟨len, ha, hl⟩ := h
    have h1 := ha.1
    have : Spec.bipRules.longest = 2 ^ 24 - 1 := rfl
    omega
  | waits | forged | version => exact ⟨by simp, by simp⟩
  | decoy _ _ _ _ ih => exact ih

theorem judgePackets_lib {r : Spec.Rules} {kL kP : Bytes} {n : Nat} {aad bs : Bytes} {v : Spec.Verdict}
    (h : Spec.JudgePackets r P kL kP n aad bs v) : v ≠ .noTerminator := by
  induction h with
  | tooBig | waits | forged | version => simp
  | decoy _ _ _ _ ih => exact ih

theorem judgePackets_iff (hP : Lawful P) {r : Spec.Rules} (hr : Stricter r) {kL kP : Bytes} {n : Nat}
    {aad bs : Bytes} {v v' : Spec.Verdict} (h : Spec.JudgePackets r P kL kP n aad bs v)
    (h' : Spec.JudgePackets Spec.bipRules P kL kP n aad bs v') :
    v ≠ v' ↔ PacketsDiverge r P kL kP n aad bs := by
  have hlong : Spec.bipRules.longest = 2 ^ 24 - 1 := rfl
  have hb := hr.longest
  constructor
  · intro hne
    induction h generalizing v' with
    | waits h =>
      refine absurd (judgePackets_unique hP (Spec.JudgePackets.waits ?_) h') hne
      rcases h with h | ⟨len, a, b, c⟩
      · exact .inl h
      · exact .inr ⟨len, a, by omega, c⟩
    | @tooBig n aad bs h => exact ⟨[], bs, by simp, by simp [Spec.packetStream], .inl (by simpa using h)⟩
    | forged h =>
      refine absurd (judgePackets_unique hP (Spec.JudgePackets.forged ?_) h') hne
      obtain ⟨len, a, b, c, d⟩ := h
      exact ⟨len, a, by omega, c, d⟩
    | @decoy n aad header contents rest v h1 h2 h3 h4 ih =>
      rcases JudgePackets.inv h' with ⟨-, x⟩ | ⟨-, x⟩ | ⟨-, x⟩ | ⟨_, _, _, a, b, c, d⟩
      · exact (incomplete_raw hP h3 x).elim
      · exact (tooLong_raw h3 (by omega) x).elim
      · exact (notSealed_raw hP h3 x).elim
      · obtain ⟨rfl, rfl, rfl⟩ := raw_unique hP h3 b c
        rcases d with ⟨-, d⟩ | ⟨d, -⟩
        · exact (ih d hne).cons h1 h2 h3
        · rw [(bip_decoy _).2 (hr.decoy _ h1)] at d; cases d
    | @version n aad header contents rest h1 h2 h3 =>
      by_cases hd : header &&& 0x80 = 0
      · refine absurd (judgePackets_unique hP (Spec.JudgePackets.version ?_ (by omega) h3) h') hne
        cases hx : Spec.bipRules.decoy header with
        | false => rfl
        | true => exact absurd hd ((bip_decoy _).1 hx)
      · exact ⟨[], Spec.rawPacket P kL kP n header aad contents ++ rest, by simp, by simp [Spec.packetStream],
          .inr ⟨header, contents, rest, hd, h1, h2, h3, by simp⟩⟩
  · rintro ⟨ds, rest, hds, rfl, hx⟩
    induction ds generalizing n aad with
    | nil =>
      simp only [Spec.packetStream, List.nil_append] at h h'
      rcases hx with hx | ⟨header, contents, more, a, b, c, d, e⟩
      · rw [List.length_nil, Nat.add_zero] at hx
        rw [judgePackets_unique hP h (.tooBig hx)]
        exact fun he => (judgePackets_bip h').1 he.symm
      · rw [List.length_nil, Nat.add_zero, if_pos rfl] at e
        subst e
        rw [judgePackets_unique hP h (.version b c d)]
        rintro rfl
        rcases JudgePackets.inv h' with ⟨x, -⟩ | ⟨x, -⟩ | ⟨x, -⟩ | ⟨_, _, _, a', b', c', d'⟩
        · cases x
        · cases x
        · cases x
        · obtain ⟨rfl, rfl, rfl⟩ := raw_unique hP d b' c'
          rcases d' with ⟨-, d'⟩ | ⟨d', -⟩
          · exact Nat.lt_irrefl _ (judgePackets_next d' _ _ rfl)
          · rw [(bip_decoy _).2 a] at d'; cases d'
    | cons m ms ih =>
      obtain ⟨m1, m2, m3⟩ := hds m (by simp)
      rw [packetStream_one, List.append_assoc] at h h'
      rcases JudgePackets.inv h with ⟨-, x⟩ | ⟨-, x⟩ | ⟨-, x⟩ | ⟨_, _, _, a, b, c, d⟩
      · exact (incomplete_raw hP m3 x).elim
      · exact (tooLong_raw m3 m2 x).elim
      · exact (notSealed_raw hP m3 x).elim
      rcases JudgePackets.inv h' with ⟨-, x⟩ | ⟨-, x⟩ | ⟨-, x⟩ | ⟨_, _, _, a', b', c', d'⟩
      · exact (incomplete_raw hP m3 x).elim
      · exact (tooLong_raw m3 (by omega) x).elim
      · exact (notSealed_raw hP m3 x).elim
      obtain ⟨e1, e2, e3⟩ := raw_unique hP m3 b c
      obtain ⟨f1, f2, f3⟩ := raw_unique hP m3 b' c'
      subst e3 f3
      rcases d with ⟨-, d⟩ | ⟨d, -⟩
      · rcases d' with ⟨-, d'⟩ | ⟨d', -⟩
        · refine ih (fun x hx => hds x (List.mem_cons_of_mem _ hx)) ?_ d d'
          rw [List.length_cons, show n + (ms.length + 1) = n + 1 + ms.length by omega, if_neg (by simp)] at hx
          simpa using hx
        · rw [← f1, (bip_decoy _).2 (hr.decoy _ m1)] at d'; cases d'
      · rw [← e1, m1] at d; cases d

theorem occurs_short {t bs : Bytes} (ht : t.length = 16) (hl : bs.length < 4112)
    (h : ∀ j ≤ 4095, ¬ Spec.OccursAt t bs j) (j : Nat) : ¬ Spec.OccursAt t bs j := by
  intro ho
  have := OccursAt.le ho
  exact h j (by omega) ho

/-- The verdicts differ exactly on the divergent streams. -/
theorem judge_iff (hP : Lawful P) {r : Spec.Rules} (hr : Stricter r) {keys : Bytes × Bytes × Bytes}
    (ht : keys.2.2.length = 16) {bs : Bytes} {v v' : Spec.Verdict} (h : Spec.Judge r P keys bs v)
    (h' : Spec.Judge Spec.bipRules P keys bs v') : v ≠ v' ↔ Spec.Divergent r P keys bs := by
  have hp : Spec.bipRules.patience = 4112 := rfl
  have hp1 := hr.patience
  rcases Judge.inv h with ⟨rfl, a, b⟩ | ⟨rfl, a, b⟩ | ⟨g, rest, a, b, rfl, d⟩
  · have := judge_unique hP h' (.waits a (by omega))
    subst this
    constructor
    · intro hne; exact absurd rfl hne
    · rintro (⟨-, x, -⟩ | ⟨g, ds, rest, x, y, -, rfl, -⟩)
      · omega
      · exact absurd (occurs_garbage _ _ _) (a _)
  · by_cases hl : bs.length < 4112
    · have hno := occurs_short ht hl a
      have := judge_unique hP h' (.waits hno hl)
      subst this
      exact ⟨fun _ => .inl ⟨hno, b, hl⟩, fun _ => by simp⟩
    · have := judge_unique hP h' (.noTerminator a (by omega))
      subst this
      constructor
      · intro hne; exact absurd rfl hne
      · rintro (⟨-, -, x⟩ | ⟨g, ds, rest, x, y, -, rfl, -⟩)
        · omega
        · exact absurd (occurs_garbage _ _ _) (a _ x)
  · rcases Judge.inv h' with ⟨-, x, -⟩ | ⟨-, x, -⟩ | ⟨g', rest', a', b', c', d'⟩
    · exact absurd (occurs_garbage _ _ _) (x _)
    · exact absurd (occurs_garbage _ _ _) (x _ a)
    obtain ⟨rfl, rfl⟩ := garbage_unique c' b b'
    rw [judgePackets_iff hP hr d d']
    constructor
    · rintro ⟨ds, more, x, rfl, y⟩
      exact .inr ⟨g, ds, more, a, b, x, rfl, by simpa using y⟩
    · rintro (⟨x, -⟩ | ⟨g', ds, more, x, y, z, u, w⟩)
      · exact absurd (occurs_garbage _ _ _) (x _)
      · obtain ⟨rfl, rfl⟩ := garbage_unique u b y
        exact ⟨ds, more, z, rfl, by simpa using w⟩

end Bip324
