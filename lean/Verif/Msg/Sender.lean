import Verif.Msg.DecProps
import Verif.Msg.ToyCodec
/-
C59: whose message is it?  Decrypt reports the SenderIdentity of the header; the
message is authenticated with keys bound to the header's SenderIdentityPub, and
signatures are checked under the key of the header's SenderUID.  Nothing compares
the three (msg/decrypt.go:140-170 and 524-537, msg/procuid.go:13-30).
-/
namespace Verif.Msg
open Prog

/-- C59 fails: a user `mallory` with an arbitrary valid UID message (identity,
keys and signature key of their own) names any other identity as the sender of
the messages and sends them with their own keys and their own UID message.  The
recipient decrypts all of them without an error, reports the other identity as
the sender and returns a signature which verifies under mallory's key. -/
theorem C59_negation_spoofed_sender (P : Prims) (hP : P.Good) (L : Link) (uid : UID)
    (hL : L.OK P uid) (mallory : UID) (victim : Str)
    (hparse : ∀ h : Header, h.Clean → (P.marshal h).length = 7152 → P.parse (P.marshal h) = some h)
    (halice : L.alice = { mallory with identity := victim })
    (huid : P.parseUID mallory.json = some uid) (_hown : uid.identity ≠ victim)
    (rs : List Round) (hrs : ∀ r ∈ rs, r.OK P uid) (hfit : ∀ r ∈ rs, r.Fits P L)
    (hd : ∀ r ∈ rs.head?, AllDifferent [P.dhPub r.rnd.headerPriv, P.dhPub L.aPriv,
      P.dhPub r.rnd.sessPriv, P.dhPub L.bPriv, P.dhPub L.kPriv])
    (hlen : rs.length ≤ stuckAt (effKeys L.nB).toNat) (A B : MemStore) (hS : L.Start P A B) :
    conversation P L rs A B =
      .ok (rs.map fun r => (r.content, victim, sigOf P r.sigKey r.content)) ∧
    L.alice.json = mallory.json ∧ L.alice.pubKey = mallory.pubKey ∧
    ∀ r ∈ rs, ∀ k, r.sigKey = some k → ∃ pk, uid.sigKey.pub32 P = some pk ∧
      P.verify pk (P.sha512 r.content) (P.sign k (P.sha512 r.content)) = true := by
  have h := C61_conversation_succeeds hP L uid hL hparse rs hrs hfit hd hlen A B hS
  rw [show L.alice.identity = victim by rw [halice]] at h
  refine ⟨h, by rw [halice], by rw [halice], ?_⟩
  intro r hr k hk
  exact ⟨_, (hrs r hr).sig k hk, hP.sign_verify _ _⟩

/-- The hypotheses can be met: mallory's UID message names the empty identity. -/
example : ∃ (mallory : UID) (victim : Str), Toy.linkE.alice = { mallory with identity := victim } ∧
    Toy.PE.parseUID mallory.json = some { Toy.uid0 with sigKey := Toy.sigKeyE } ∧
    ({ Toy.uid0 with sigKey := Toy.sigKeyE } : UID).identity ≠ victim ∧
    Toy.linkE.OK Toy.PE { Toy.uid0 with sigKey := Toy.sigKeyE } ∧
    Toy.linkE.Start Toy.PE Toy.storeA Toy.storeB ∧ Toy.roundsE ≠ [] :=
  ⟨{ Toy.aliceE with identity := [] }, [97, 64, 109], rfl, rfl, by decide, Toy.linkE_ok,
    Toy.startE, by decide⟩

/-- C59, what holds: if Decrypt succeeds, then the sender it reports is the
SenderIdentity of the header, the header's SenderIdentityPub is a well formed key
whose hash is correct, and the message was authenticated with a message key which
the store holds for a session between the recipient's key and exactly that
SenderIdentityPub.  Missing: any connection between SenderIdentity and
SenderIdentityPub (see `C59_negation_spoofed_sender`). -/
theorem C59_bound_to_identity_key_partial (P : Prims) (a : DecArgs) (st st' : MemStore)
    (sender sig : Str)
    (hok : (decrypt P a).run (MemStore.handle P) st = (.ok (sender, sig), st')) :
    ∃ headerPub u h body mk auth mac rest st1 pk,
      (decHead P a).out = .ok (headerPub, u, h, body) ∧ u ∈ a.identities ∧
      sender = h.senderIdentity ∧
      h.senderIdentityPub.pub32 P = some pk ∧ pk.length = 32 ∧
      P.unb64 h.senderIdentityPub.hash = some (P.sha512 pk) ∧
      StoreLE st st1 ∧
      st1.getMessageKey P (calcKey P u.pubKey.hash h.senderIdentityPub.hash h.recipientTempHash
        h.senderSessionPub.hash) false h.senderMessageCount = .ok mk ∧
      body = auth ++ mac ++ rest ∧ mac = P.hmac (deriveSymmetricKeys P mk).2 auth := by
  obtain ⟨hp, u, h, body, hpk, mk, auth, mac, rest, content, signature, st1, e0, e1, e2, e3, e4, e5,
    e6, e7, e8, e9⟩ := C10_success_is_authenticated P a st st' sender sig hok
  have hrun := (noCall_decHead P a).run (MemStore.handle P) MemStore.new
  rw [e0] at hrun
  unfold decHead readHeader at hrun
  simp only [bind_eq, run_bind_ok, Prod.exists, run_wire_ok, run_failIf_ok,
    run_readPacket_ok] at hrun
  obtain ⟨ph, t, s1, ⟨a1, rfl⟩, -, s2, ⟨a2, rfl⟩, p1, r1, s3, ⟨b1, b2, b3, rfl⟩, u', h', s4,
    ⟨nonce, r2, s5, ⟨c1, rfl⟩, len, r3, s6, ⟨c2, rfl⟩, ct, r4, s7, ⟨c3, rfl⟩, u2, jsn, s8, c4, c5⟩,
    d⟩ := hrun
  simp only [run_ret, Prod.mk.injEq, Res.ok.injEq] at d
  obtain ⟨⟨rfl, rfl, rfl, rfl⟩, rfl⟩ := d
  split at c5
  · cases c5
  rename_i h2 hp2
  simp only [run_bind_ok, run_failIf_ok, run_ret, Prod.mk.injEq, Res.ok.injEq] at c5
  obtain ⟨-, s9, ⟨v, rfl⟩, ⟨rfl, rfl⟩, rfl⟩ := c5
  have hmem : u2 ∈ a.identities := by
    clear c3 e0 e1
    generalize a.identities = ids at c4 ⊢
    induction ids with
    | nil => cases c4
    | cons x xs ih =>
      unfold tryOpen at c4
      simp only [bind_eq, run_bind_ok, run_orPanic_ok] at c4
      obtain ⟨pr, s10, ⟨d1, rfl⟩, d2⟩ := c4
      split at d2
      · simp only [run_ret, Prod.mk.injEq, Res.ok.injEq] at d2
        rw [← d2.1.1]
        simp
      · exact List.mem_cons_of_mem _ (ih d2)
  have hv : (h2.senderIdentityPub.verify P && h2.senderIdentityPub.func == .ecdhe) = true := by
    simp only [Bool.not_eq_false', Header.verify, Bool.and_eq_true] at v
    simp only [Bool.and_eq_true]
    exact v.1.1.2
  have hk : ∃ pk, h2.senderIdentityPub.pub32 P = some pk ∧ pk.length = 32 ∧
      P.unb64 h2.senderIdentityPub.hash = some (P.sha512 pk) := by
    simp only [KeyEntry.verify, Bool.and_eq_true, beq_iff_eq] at hv
    obtain ⟨⟨-, hv⟩, hf⟩ := hv
    split at hv
    · cases hv
    rename_i hh hhe
    simp only [Bool.and_eq_true] at hv
    obtain ⟨-, hv⟩ := hv
    split at hv
    · cases hv
    rename_i pk hpk'
    simp only [Bool.and_eq_true, beq_iff_eq] at hv
    refine ⟨pk, ?_, hv.1, by rw [hhe, hv.2]⟩
    simp only [KeyEntry.pub32, hpk', hv.1, hf, true_or, and_self, if_true]
  obtain ⟨pk, k1, k2, k3⟩ := hk
  exact ⟨_, _, _, _, mk, auth, mac, rest, st1, pk, e0, hmem, e8, k1, k2, k3, e4, e5, e2, e3⟩

example : ∃ (P : Prims) (a : DecArgs) (st st' : MemStore) (sender sig : Str),
    (decrypt P a).run (MemStore.handle P) st = (.ok (sender, sig), st') ∧ sig ≠ [] :=
  let ⟨sig, st', h, hs, _⟩ := Toy.accepted
  ⟨_, _, _, st', _, sig, h, hs⟩

end Verif.Msg
