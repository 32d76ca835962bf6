import Verif.Props.Relay

/-!
# C89: the keys of all sessions are different
-/

namespace Bip324

open Concrete

variable {prof : Profile}

/-- The five keys of a session by the labels of BIP-324. -/
def SessionKeyMaterial.labelled (k : SessionKeyMaterial) : List (Bytes × Bytes) :=
  [(Spec.lblSessionId, k.sessionId), (Spec.lblInitiatorL, k.initiatorLengthKey), (Spec.lblInitiatorP, k.initiatorPacketKey),
   (Spec.lblResponderL, k.responderLengthKey), (Spec.lblResponderP, k.responderPacketKey)]

theorem labelled_key (enc : Bytes → Bytes) (henc : ∀ sk, (enc sk).length = 64) {a b sk magic : Bytes} {initiating : Bool}
    {k : SessionKeyMaterial} (h : SessionKeyMaterial.fromEcdh (rfc (secpWith enc)) a b sk (if initiating then .A else .B) magic = .ok k)
    {label key : Bytes} (hl : (label, key) ∈ k.labelled) :
    some key = (Spec.keyMessages label magic a b (Spec.sharedX sk (if initiating then b else a)))[4]?.map sha256 := by
  rw [C17_derivation (C53_real_lawful enc henc), Outcome.ok.injEq] at h
  subst h
  rw [← key_eq enc]
  simp only [SessionKeyMaterial.labelled, List.mem_cons, Prod.mk.injEq, List.not_mem_nil, or_false] at hl
  rcases hl with ⟨rfl, rfl⟩ | ⟨rfl, rfl⟩ | ⟨rfl, rfl⟩ | ⟨rfl, rfl⟩ | ⟨rfl, rfl⟩ <;> rfl

/-- C89: of the ids, length keys and packet keys that parties derive, in whatever sessions, two are the same only if they are
for the same purpose and direction, of the same two public keys in the same roles, on the same network - or two messages
collide which have been hashed for them, at the same step. -/
theorem C89_across (enc : Bytes → Bytes) (henc : ∀ sk, (enc sk).length = 64) {a b sk magic a' b' sk' magic' : Bytes}
    {initiating initiating' : Bool} {k k' : SessionKeyMaterial} (hm : magic.length = 4) (hm' : magic'.length = 4)
    (ha : a.length = 64) (hb : b.length = 64) (ha' : a'.length = 64) (hb' : b'.length = 64)
    (h : SessionKeyMaterial.fromEcdh (rfc (secpWith enc)) a b sk (if initiating then .A else .B) magic = .ok k)
    (h' : SessionKeyMaterial.fromEcdh (rfc (secpWith enc)) a' b' sk' (if initiating' then .A else .B) magic' = .ok k')
    {label label' key : Bytes} (hl : (label, key) ∈ k.labelled) (hl' : (label', key) ∈ k'.labelled) :
    (label = label' ∧ magic = magic' ∧ a = a' ∧ b = b') ∨
      Spec.CollisionAmong (Spec.keyMessages label magic a b (Spec.sharedX sk (if initiating then b else a)))
        (Spec.keyMessages label' magic' a' b' (Spec.sharedX sk' (if initiating' then b' else a'))) :=
  key_binds hm hm' (ha.trans ha'.symm) (hb.trans hb'.symm) ((labelled_key enc henc h hl).symm.trans (labelled_key enc henc h' hl'))

/-- C89 within a session: the id and the four keys are five different strings, unless two messages collide which the party has
hashed for two of them. -/
theorem C89_within (enc : Bytes → Bytes) (henc : ∀ sk, (enc sk).length = 64) {a b sk magic : Bytes} {initiating : Bool}
    {k : SessionKeyMaterial} (hm : magic.length = 4) (ha : a.length = 64) (hb : b.length = 64)
    (h : SessionKeyMaterial.fromEcdh (rfc (secpWith enc)) a b sk (if initiating then .A else .B) magic = .ok k) :
    [k.sessionId, k.initiatorLengthKey, k.initiatorPacketKey, k.responderLengthKey, k.responderPacketKey].Nodup ∨
      ∃ label label', label ≠ label' ∧
        label ∈ [Spec.lblSessionId, Spec.lblInitiatorL, Spec.lblInitiatorP, Spec.lblResponderL, Spec.lblResponderP] ∧
        label' ∈ [Spec.lblSessionId, Spec.lblInitiatorL, Spec.lblInitiatorP, Spec.lblResponderL, Spec.lblResponderP] ∧
        Spec.CollisionAmong (Spec.keyMessages label magic a b (Spec.sharedX sk (if initiating then b else a)))
          (Spec.keyMessages label' magic a b (Spec.sharedX sk (if initiating then b else a))) := by
  by_cases hc : ∃ label label', label ≠ label' ∧
        label ∈ [Spec.lblSessionId, Spec.lblInitiatorL, Spec.lblInitiatorP, Spec.lblResponderL, Spec.lblResponderP] ∧
        label' ∈ [Spec.lblSessionId, Spec.lblInitiatorL, Spec.lblInitiatorP, Spec.lblResponderL, Spec.lblResponderP] ∧
        Spec.CollisionAmong (Spec.keyMessages label magic a b (Spec.sharedX sk (if initiating then b else a)))
          (Spec.keyMessages label' magic a b (Spec.sharedX sk (if initiating then b else a)))
  · exact .inr hc
  · left
    have hfst : k.labelled.map Prod.fst =
        [Spec.lblSessionId, Spec.lblInitiatorL, Spec.lblInitiatorP, Spec.lblResponderL, Spec.lblResponderP] := rfl
    show (k.labelled.map Prod.snd).Nodup
    have hn : (k.labelled.map Prod.fst).Nodup := by rw [hfst]; decide +kernel
    refine List.Nodup.map_on ?_ (List.Nodup.of_map _ hn)
    rintro ⟨l, x⟩ hx ⟨l', x'⟩ hx' e
    simp only at e
    subst e
    rcases C89_across enc henc hm hm ha hb ha hb h h hx hx' with ⟨e, -⟩ | hcol
    · rw [e]
    · by_contra hne
      exact hc ⟨l, l', fun e => hne (by rw [e]), hfst ▸ List.mem_map_of_mem hx, hfst ▸ List.mem_map_of_mem hx', hcol⟩

/-- A session on the real curve. -/
example : ∃ k, SessionKeyMaterial.fromEcdh (rfc (secpWith ellswiftOf)) (ellswiftOf (beBytes 32 12345)) (ellswiftOf (beBytes 32 6789))
      (beBytes 32 12345) (if true then .A else .B) [0xF9, 0xBE, 0xB4, 0xD9] = .ok k :=
  ⟨_, C17_derivation (C53_real_lawful ellswiftOf (fun _ => ellswiftEncode_length _)) _ _ _ _ true⟩

end Bip324
