import Verif.Ctrl.Journey
import Verif.Ctrl.JourneyStuck
import Verif.Ctrl.JourneyDb
import Verif.Msg.AnyOrderToy
import Verif.Ctrl.SendProps
/-
A case that meets the hypotheses of C143: two of three messages arrive, the later one first.
-/
set_option autoImplicit false
namespace Verif.Ctrl.Journey
open Verif.Sql Verif.Msgdb Verif.Ctrl.Mailbox Verif.Ctrl.CryptRun
open Verif.Msg (Link Round UID MemStore Str)
open Verif.Msg.Toy (PE PE_good linkE linkE_ok roundsE roundsE_ok roundsE_fits roundsE_first roundsE_apart storeA storeB startE emarshal_parse aliceE sigPub roundE)
open Verif.Ctrl.Deliver (World toyWorld create toyServer)
open Verif.Mix (toy toy_good toyMix toyLook toyLook_key toyHdr toyHdr_plain toyHdr_length)

def toyNa : Bytes := Base64.encode toyAddr'.asn1

/-- The sender with the nym address. -/
def senderA : MemStore := { storeA with nyms := fun _ => toyNa }

theorem startA : linkE.Start PE senderA storeB := ⟨startE.stA, startE.stB, startE.sessA, startE.sessB, startE.pub, startE.priv⟩

def toyTrip : Trip := ⟨20, 30, 1, 2, Base64.encode [4], List.replicate 32 6, [11], List.replicate 32 12, [13]⟩

theorem toyTrip_fine : toyTrip.Fine toyParams toyNa := by
  refine ⟨by decide, by decide, by decide, ?_⟩
  intro t b ht hb
  rw [show toyTrip.token = Base64.encode [4] from rfl, Base64.decode_encode] at ht
  rw [toyNa, Base64.decode_encode] at hb
  cases ht
  cases hb
  exact ⟨toyHdr_plain _, (toyHdr_length Mix.typeRelay (by simp [Mix.I32, Mix.typeRelay]) _ toyAddr'_length _ (by simp [toyTrip])).1⟩

theorem toyLook_all : ∀ m ∈ [toyMix], ∃ k, m.pubkey = toyWorld.P.pub k ∧ toyLook (toyWorld.P.pub k) = some k := by
  intro m hm
  rw [List.mem_singleton] at hm
  subst hm
  exact ⟨[5], rfl, toyLook_key⟩

theorem marshal_bound (utf8 : Bytes → Bool) (mo : Mix.Out) (d : Bytes) (hm : mo.marshal utf8 = some d) (hp : Mix.I64 mo.port)
    (hl : (mo.message.getD []).length + mo.to_.length + mo.from_.length + (mo.revokeID.getD []).length + mo.smartHost.length +
      (mo.caCert.getD []).length + (mo.error.getD Mix.txtNil).length < 2 ^ 29) : d.length < 2 ^ 30 := by
  unfold Mix.Out.marshal at hm
  simp only [Option.bind_eq_bind, Option.bind_eq_some_iff, Option.pure_def, Option.some.injEq] at hm
  obtain ⟨t, ht, f, hf, h, hh, e, he, rfl⟩ := hm
  have l1 := Mix.eStr_length_le ht (by omega)
  have l2 := Mix.eStr_length_le hf (by omega)
  have l3 := Mix.eStr_length_le hh (by omega)
  have l4 := Mix.eStr_length_le he (by omega)
  have t1 := Asn1.tlv_length 4 (mo.message.getD []) (by omega)
  have t2 := Asn1.tlv_length 4 (mo.revokeID.getD []) (by omega)
  have t3 := Asn1.tlv_length 4 (mo.caCert.getD []) (by omega)
  have i1 := Asn1.encInt_length 8 mo.port (by omega) (by unfold Mix.I64 at hp; omega)
  have t4 := Asn1.tlv_length 2 (Asn1.encInt mo.port) (by omega)
  have t5 := Asn1.tlv_length 1 [if mo.resend then 255 else 0] (by simp)
  have hc := Asn1.tlv_length 48 (Asn1.eBytes (mo.message.getD []) ++ (t ++ (f ++ (Asn1.eBytes (mo.revokeID.getD []) ++ (Asn1.eInt mo.port ++
    (h ++ (Asn1.eBytes (mo.caCert.getD []) ++ (e ++ Asn1.eBool mo.resend)))))))) (by
      simp only [List.length_append, Asn1.eBytes, Asn1.eInt, Asn1.eBool]
      simp only [List.length_singleton] at t5
      omega)
  simp only [List.length_append, Asn1.eBytes, Asn1.eInt, Asn1.eBool] at hc ⊢
  simp only [List.length_singleton] at t5
  omega

/-- Every encrypted message reaches the mailbox. -/
theorem toy_travels (msg : Bytes) (hm : msg.length = 49152) :
    ∃ text to, Travels toyWorld toyLook toyNa (Base64.encode msg) toyTrip text to := by
  obtain ⟨mixes, hk, mx, hmem, hrel⟩ := delivered toy toy_good true true (some [toyMix]) toyParams toyParams_fits [9] [9] toyPub _ 10 20 30 0 [8] (List.replicate 32 3) [109]
    toyNa toyAddr'.asn1 (by simp) toy_newNymAddress (Base64.decode_encode _) toyHdr msg (List.replicate 32 6) [11] (List.replicate 32 12) (by simp) (by decide) (by decide)
    (toyHdr_plain _) (toyHdr_length Mix.typeRelay (by simp [Mix.I32, Mix.typeRelay]) _ toyAddr'_length _ (by simp)).1 (by omega)
  cases hk
  rw [List.mem_singleton] at hmem
  subst hmem
  obtain ⟨e, rs, g1, -, -⟩ := hrel toyLook [5] rfl toyLook_key
  have hlen := newRelay_length toy_good (by simp) g1
  have hs := (toyHdr_length Mix.typeRelay (by simp [Mix.I32, Mix.typeRelay]) _ toyAddr'_length (List.replicate 32 6) (by simp)).2
  have hs' : (toyHdr.forRelay toyAddr'.asn1 (List.replicate 32 6)).asn1.length ≤ 700 := hs
  generalize (toyHdr.forRelay toyAddr'.asn1 (List.replicate 32 6)).asn1.length = k at hlen hs'
  have hlen2 : e.length ≤ 49966 := by omega
  have hb := writeMailBody_length e
  let mo : Mix.Out := ⟨some (toyWorld.head [109] ++ Util.writeMailBody e), [109], toyWorld.sender, some (List.replicate 32 6), 587, [], some toyWorld.ca, none, true⟩
  have hmar : ∃ d, mo.marshal toyWorld.utf8 = some d ∧ d ≠ [] := by
    have hs : ∀ s, ∃ b, Asn1.eStr toyWorld.utf8 s = some b := by
      intro s
      unfold Asn1.eStr
      split
      · exact ⟨_, rfl⟩
      · rw [if_pos (show toyWorld.utf8 s = true from rfl)]; exact ⟨_, rfl⟩
    obtain ⟨b1, h1⟩ := hs mo.to_
    obtain ⟨b2, h2⟩ := hs mo.from_
    obtain ⟨b3, h3⟩ := hs mo.smartHost
    obtain ⟨b4, h4⟩ := hs (mo.error.getD Mix.txtNil)
    refine ⟨_, by unfold Mix.Out.marshal; rw [h1, h2, h3, h4]; rfl, ?_⟩
    intro h0
    have := Mix.tlv_length_ge 48 (Asn1.eBytes (mo.message.getD []) ++ (b1 ++ (b2 ++ (Asn1.eBytes (mo.revokeID.getD []) ++ (Asn1.eInt mo.port ++
      (b3 ++ (Asn1.eBytes (mo.caCert.getD []) ++ (b4 ++ Asn1.eBool mo.resend))))))))
    rw [h0] at this
    simp only [List.length_nil] at this
    omega
  obtain ⟨d, h1, h2⟩ := hmar
  have hd : d.length < 2 ^ 30 := marshal_bound _ mo d h1 (by simp [mo, Mix.I64]) (by
    show (toyWorld.head [109] ++ Util.writeMailBody e).length + 1 + 1 + 32 + 0 + 1 + 3 < _
    rw [List.length_append]
    show 1 + _ + 1 + 1 + 32 + 0 + 1 + 3 < _
    omega)
  have hc : Deliver.create toyWorld.P toyWorld.utf8 toyTrip.c1 toyWorld.head toyWorld.sender toyWorld.ca toyTrip.revoke toyTrip.e1 toyTrip.n1 toyTrip.min toyTrip.max
      toyTrip.token toyNa (Base64.encode msg) = some (Base64.encode d) := by
    unfold Deliver.create
    rw [Base64.decode_encode, show toyTrip.token = Base64.encode [4] from rfl, Base64.decode_encode, toyNa, Base64.decode_encode]
    simp only [Option.bind_eq_bind, Option.bind_some]
    rw [show Mix.newRelay toyWorld.P toyTrip.c1 ⟨0, toyTrip.min, toyTrip.max, some [4], [], none⟩ toyAddr'.asn1 msg toyTrip.revoke toyTrip.e1 toyTrip.n1 = .ok (e, [109]) from g1]
    show some (Base64.encode ((mo.marshal toyWorld.utf8).getD [])) = _
    rw [h1]
    rfl
  obtain ⟨-, text, ht⟩ := sent_on toyWorld toy_good toyParams_fits (by simp) toy_newNymAddress toyLook_all toyTrip_fine (by omega) hc (by rw [Base64.encode_length]; omega)
    (by
      intro h0
      have := Base64.encode_length d
      rw [h0] at this
      have : 0 < d.length := List.length_pos_iff.mpr h2
      simp only [List.length_nil] at *
      omega)
  exact ⟨text, _, ht⟩

/-- A nym with a contact and an account at "a.mute.one". -/
def toyOps : List Op :=
  [.addNym [9] [9] [], .addContact [9] [2] [2] [] 0, .addAccount [9] [2] (List.replicate 32 1 ++ toyPub) ([97, 46] ++ Mix.domain) [1, 2, 3] 0 0]

def toyAcc : Account := ⟨1, 1, List.replicate 32 1 ++ toyPub, [97, 46] ++ Mix.domain, [1, 2, 3], 0, 0, 0, 0⟩

theorem toyOps_account : (Db.new.run properI toyOps).getAccount properI [9] [2] = .ok toyAcc := rfl

theorem toy_history (text1 text2 : Bytes) : History properI [9] [2] toyOps [⟨[22], 8, text2⟩, ⟨[21], 7, text1⟩] [] := by
  refine .arrive _ _ _ _ (.arrive _ _ _ _ (.start _ _ toyOps_account rfl rfl) ?_ ?_ ?_) ?_ ?_ ?_
  · simp
  · show (0 : Int) < 7; decide
  · intro b hb; cases hb
  · simp
  · show (0 : Int) < 8; decide
  · intro b hb
    rw [List.mem_singleton] at hb
    subst hb
    exact ⟨by simp, by show (7 : Int) < 8; decide⟩

theorem toy_plainNym : CryptRun.PlainNym (nymOf PE linkE senderA) := by
  have hnym : nymOf PE linkE senderA = toyNa := by unfold nymOf; rw [startA.stA]; rfl
  rw [hnym]
  refine plainNym_encode fun h => ?_
  have := congrArg List.length h
  have h2 := Mix.tlv_length_ge 48
  unfold Mix.NAddr.asn1 at this
  have := h2 (Asn1.eBytes toyAddr'.mixAddress ++ (Asn1.eInt toyAddr'.expire ++ (Asn1.eBool toyAddr'.singleUse ++
  (Asn1.eBytes toyAddr'.tokenPubKey ++ (Asn1.eBytes toyAddr'.mixPubKey ++ (Asn1.eBytes toyAddr'.addressKey ++ Asn1.eBytes toyAddr'.privateData))))))
  simp only [List.length_nil] at *
  omega

/-- C143_arrives_partial: three messages are sent, the third and then the first are found in the
mailbox, and both are stored. -/
example (T : Texts) : ∃ (text1 text2 : Bytes) (db' : Db) (B' : MemStore),
    liveRun toy (memOpener PE T linkE) properI 5 (fun j => ([40, 3 + UInt8.ofNat j], true))
      (Db.new.run properI (toyOps ++ fetchRun [9] [2] [] [⟨[22], 8, text2⟩, ⟨[21], 7, text1⟩])) storeB = some (db', B', true) ∧
    db'.inQueue = [] ∧ inbox db'.messages = [⟨1, aliceE.identity, 8, [120]⟩, ⟨1, aliceE.identity, 7, [104, 105]⟩] := by
  obtain ⟨ws, A', hsend⟩ := Msg.sendAll_succeeds PE_good linkE_ok roundsE roundsE_ok roundsE_fits roundsE_first (by decide) senderA storeB startA
  obtain ⟨hlen, hsent⟩ := Msg.sendAll_sent PE_good linkE_ok roundsE roundsE_ok roundsE_first (by decide) senderA storeB A' startA ws hsend
  have hnym : nymOf PE linkE senderA = toyNa := by unfold nymOf; rw [startA.stA]; rfl
  have hrun := sendRun_mem PE_good T linkE_ok roundsE roundsE_ok senderA A' toy_plainNym ws hsend
  have trav : ∀ i r, roundsE[i]? = some r → ∃ text to, Travels toyWorld toyLook toyNa (ws.getD i []) toyTrip text to := by
    intro i r hi
    obtain ⟨ss, -, -, s1, s2, s3⟩ := hsent i r hi
    rw [s3]
    exact toy_travels _ (messageBytes_length PE_good (roundsE_ok r (List.mem_of_getElem? hi)).rnd s1 _ _ _ s2)
  obtain ⟨text1, to1, t1⟩ := trav 0 _ rfl
  obtain ⟨text2, to2, t2⟩ := trav 2 _ rfl
  refine ⟨text1, text2, ?_⟩
  have hist := toy_history text1 text2
  obtain ⟨ms, A'', m1, m2, m3⟩ := C143_arrives_partial (I := properI) PE_good (fun _ => rfl) T emarshal_parse linkE _ linkE_ok roundsE roundsE_ok roundsE_fits roundsE_first (by decide)
    senderA storeB startA toyWorld toy_good (by simp [properI]) [9] [2] toyOps _ [] hist (by intro op hop; simp only [toyOps, List.mem_cons, List.not_mem_nil, or_false] at hop; rcases hop with rfl | rfl | rfl <;> simp [ValidType])
    rfl 1 1 rfl toyAcc toyOps_account [] rfl [⟨[22], 8, text2⟩, ⟨[21], 7, text1⟩] ⟨List.prefix_rfl, fun m hm _ => hm⟩ [toyMix] toyParams toyParams_fits rfl 10 0 [8]
    (List.replicate 32 3) [109] (by simp) toy_newNymAddress toyLook toyLook_all (by unfold CryptRun.Plain; decide) (by decide) (by decide) (fun j => ([40, 3 + UInt8.ofNat j], true)) (.inr fun _ => rfl)
  rw [hrun] at m1
  cases m1
  obtain ⟨db', B', r1, r2, r3, -⟩ := m3 [(2, toyTrip, ⟨[22], 8, text2⟩), (0, toyTrip, ⟨[21], 7, text1⟩)] rfl (show [2, 0].Nodup by decide)
    (by
      intro x hx
      simp only [List.mem_cons, List.not_mem_nil, or_false] at hx
      rcases hx with rfl | rfl
      · exact .inl (show 2 < (Msg.effKeys linkE.nB).toNat by decide)
      · exact .inl (show 0 < (Msg.effKeys linkE.nB).toNat by decide))
    (by
      intro x hx r hr
      obtain rfl := Option.some.inj hx
      obtain rfl : roundE 3 [120] true = r := Option.some.inj hr
      exact roundsE_apart)
    (by
      have hw : ∀ i, i < 3 → (ws.map fun w => (w, nymOf PE linkE senderA))[i]? = some (ws.getD i [], toyNa) := by
        intro i hi
        rw [List.getElem?_map, hnym, List.getD_eq_getElem?_getD]
        cases hws : ws[i]? with
        | none =>
          have := List.getElem?_eq_none_iff.mp hws
          rw [hlen] at this
          exact absurd (show 3 ≤ i from this) (by omega)
        | some w => rfl
      intro x hx
      simp only [List.mem_cons, List.not_mem_nil, or_false] at hx
      rcases hx with rfl | rfl
      · exact ⟨_, to2, hw 2 (by decide), toyTrip_fine, t2⟩
      · exact ⟨_, to1, hw 0 (by decide), toyTrip_fine, t1⟩)
  exact ⟨db', B', r1 0, r2, r3⟩

/-- The sender with a new key database. -/
def dbA : Keydb.Store := { Keydb.toyA with nyms := fun _ => toyNa }

theorem begin_dbA : Keydb.Begin PE linkE dbA Keydb.toyB := ⟨rfl, rfl, Keydb.toy_begin.pub, Keydb.toy_begin.priv⟩

/-- C144_arrives_partial: two messages are sent, the second is found in the mailbox before the first,
and both are stored. -/
example (T : Texts) : ∃ (text1 text2 : Bytes) (db' : Db) (B' : Keydb.Store),
    liveRun toy (dbOpener PE T linkE) properI 5 (fun j => ([40, 2 + UInt8.ofNat j], true))
      (Db.new.run properI (toyOps ++ fetchRun [9] [2] [] [⟨[22], 8, text2⟩, ⟨[21], 7, text1⟩])) Keydb.toyB = some (db', B', true) ∧
    db'.inQueue = [] ∧ inbox db'.messages = [⟨1, aliceE.identity, 8, []⟩, ⟨1, aliceE.identity, 7, [104, 105]⟩] := by
  have hok : ∀ r ∈ Keydb.toyRounds, r.OK PE { Msg.Toy.uid0 with sigKey := Msg.Toy.sigKeyE } := by
    intro r hr
    simp only [Keydb.toyRounds, List.mem_cons, List.not_mem_nil, or_false] at hr
    rcases hr with rfl | rfl <;> exact Msg.Toy.roundE_ok _ _ _
  have hfits : ∀ r ∈ Keydb.toyRounds, r.Fits PE linkE := by
    intro r hr
    simp only [Keydb.toyRounds, List.mem_cons, List.not_mem_nil, or_false] at hr
    rcases hr with rfl | rfl <;> exact Msg.Toy.roundE_fits _ _ (by simp) _
  have hdiff : Msg.FirstDifferent PE linkE Keydb.toyRounds := by
    intro r hr
    obtain rfl : roundE 1 [104, 105] true = r := Option.some.inj hr
    decide +kernel
  obtain ⟨ws, A', hsend⟩ := Msg.sendAll_succeeds PE_good linkE_ok Keydb.toyRounds hok hfits hdiff (by decide) dbA.mem Keydb.toyB.mem begin_dbA.start
  obtain ⟨hlen, hsent⟩ := Msg.sendAll_sent PE_good linkE_ok Keydb.toyRounds hok hdiff (by decide) dbA.mem Keydb.toyB.mem A' begin_dbA.start ws hsend
  have hnym : nymOf PE linkE dbA.mem = toyNa := by unfold nymOf; rw [begin_dbA.start.stA]; rfl
  have hnym' : nymOf PE linkE senderA = toyNa := by unfold nymOf; rw [startA.stA]; rfl
  obtain ⟨SA', hrun⟩ := sendRun_db PE_good T linkE_ok Keydb.toyRounds hok dbA.mem dbA (by rw [hnym, ← hnym']; exact toy_plainNym) ws
    (Keydb.dbSend_sent PE_good linkE_ok Keydb.toyRounds hok hdiff Keydb.toy_drawn (by decide) dbA Keydb.toyB begin_dbA A' ws hsend)
  have trav : ∀ i r, Keydb.toyRounds[i]? = some r → ∃ text to, Travels toyWorld toyLook toyNa (ws.getD i []) toyTrip text to := by
    intro i r hi
    obtain ⟨ss, -, -, s1, s2, s3⟩ := hsent i r hi
    rw [s3]
    exact toy_travels _ (messageBytes_length PE_good (hok r (List.mem_of_getElem? hi)).rnd s1 _ _ _ s2)
  obtain ⟨text1, to1, t1⟩ := trav 0 _ rfl
  obtain ⟨text2, to2, t2⟩ := trav 1 _ rfl
  refine ⟨text1, text2, ?_⟩
  have hist := toy_history text1 text2
  obtain ⟨ms, A'', m1, m2, m3⟩ := C144_arrives_partial (I := properI) PE_good (fun _ => rfl) T emarshal_parse linkE _ linkE_ok Keydb.toyRounds hok hfits hdiff
    Keydb.toy_drawn (by decide) dbA Keydb.toyB begin_dbA
    toyWorld toy_good (by simp [properI]) [9] [2] toyOps _ [] hist (by intro op hop; simp only [toyOps, List.mem_cons, List.not_mem_nil, or_false] at hop; rcases hop with rfl | rfl | rfl <;> simp [ValidType])
    rfl 1 1 rfl toyAcc toyOps_account [] rfl [⟨[22], 8, text2⟩, ⟨[21], 7, text1⟩] ⟨List.prefix_rfl, fun m hm _ => hm⟩ [toyMix] toyParams toyParams_fits rfl 10 0 [8]
    (List.replicate 32 3) [109] (by simp) toy_newNymAddress toyLook toyLook_all (by unfold CryptRun.Plain; decide) (by decide) (by decide) (fun j => ([40, 2 + UInt8.ofNat j], true)) (.inr fun _ => rfl)
  rw [hrun] at m1
  cases m1
  obtain ⟨db', B', r1, r2, r3, -⟩ := m3 [(1, toyTrip, ⟨[22], 8, text2⟩), (0, toyTrip, ⟨[21], 7, text1⟩)] rfl (show [1, 0].Nodup by decide)
    (by
      intro x hx
      simp only [List.mem_cons, List.not_mem_nil, or_false] at hx
      rcases hx with rfl | rfl
      · exact show 1 < (Msg.effKeys linkE.nB).toNat by decide
      · exact show 0 < (Msg.effKeys linkE.nB).toNat by decide)
    (by
      intro x hx
      obtain rfl := Option.some.inj hx
      refine ⟨by simp, fun r hr => ?_⟩
      obtain rfl : roundE 2 [] true = r := Option.some.inj hr
      refine ⟨?_, fun r' hr' hn => ?_⟩
      · decide +kernel
      · simp only [Keydb.toyRounds, List.mem_cons, List.not_mem_nil, or_false] at hr'
        rcases hr' with rfl | rfl <;> exact ⟨by decide +kernel, by decide +kernel⟩)
    (by
      have hw : ∀ i, i < 2 → (ws.map fun w => (w, nymOf PE linkE dbA.mem))[i]? = some (ws.getD i [], toyNa) := by
        intro i hi
        rw [List.getElem?_map, hnym, List.getD_eq_getElem?_getD]
        cases hws : ws[i]? with
        | none =>
          have := List.getElem?_eq_none_iff.mp hws
          rw [hlen] at this
          exact absurd (show 2 ≤ i from this) (by omega)
        | some w => rfl
      intro x hx
      simp only [List.mem_cons, List.not_mem_nil, or_false] at hx
      rcases hx with rfl | rfl
      · exact ⟨_, to2, hw 1 (by decide), toyTrip_fine, t2⟩
      · exact ⟨_, to1, hw 0 (by decide), toyTrip_fine, t1⟩)
  exact ⟨db', B', r1 0, r2, r3⟩

/-- C143_mixed_partial: an envelope for the address of the account is made and accepted. -/
example : ∃ env text, create toyWorld.P toyWorld.utf8 toyTrip.c1 toyWorld.head toyWorld.sender toyWorld.ca toyTrip.revoke toyTrip.e1 toyTrip.n1
      toyTrip.min toyTrip.max toyTrip.token toyNa (Base64.encode Mix.toyMsg) = some env ∧
    Deliver.outcome toyWorld.utf8 (toyServer none none) none env = .accepted ∧
    Travels toyWorld toyLook toyNa (Base64.encode Mix.toyMsg) toyTrip text (accountAddress toyPub ([97, 46] ++ Mix.domain)) := by
  have h1 : ((create toyWorld.P toyWorld.utf8 toyTrip.c1 toyWorld.head toyWorld.sender toyWorld.ca toyTrip.revoke toyTrip.e1 toyTrip.n1
      toyTrip.min toyTrip.max toyTrip.token toyNa (Base64.encode Mix.toyMsg)).map fun env =>
        decide (env.length < 2 ^ 31 ∧ Deliver.outcome toyWorld.utf8 (toyServer none none) none env = .accepted)) = some true := by
    decide +kernel
  cases h : create toyWorld.P toyWorld.utf8 toyTrip.c1 toyWorld.head toyWorld.sender toyWorld.ca toyTrip.revoke toyTrip.e1 toyTrip.n1
      toyTrip.min toyTrip.max toyTrip.token toyNa (Base64.encode Mix.toyMsg) with
  | none => rw [h] at h1; cases h1
  | some env =>
    rw [h] at h1
    simp only [Option.map_some, Option.some.injEq, decide_eq_true_eq] at h1
    obtain ⟨-, text, ht⟩ := C143_mixed_partial toyWorld toy_good [toyMix] toyParams toyParams_fits [9] toyPub [97, 46] 10 0 [8] (List.replicate 32 3) [109] toyNa
      (by simp) toy_newNymAddress toyLook toyLook_all toyTrip toyTrip_fine Mix.toyMsg (by rw [Mix.toyMsg_length]; omega) env h h1.1 _ none h1.2
    exact ⟨env, text, rfl, h1.2, ht⟩

open Verif.Msg.Toy (many many_eq roundE_ok roundE_fits) in
/-- C143_blocked_violated: of 310 messages the last and the first are found in the mailbox. -/
example : ∃ text1 text2 : Bytes, ∀ (n : Nat) (later : List (List Op × (Nat → Bytes × Bool))), (∀ y ∈ later, ∀ op ∈ y.1, FetchOp op) →
    ∃ (db' : Db) (B' : MemStore), liveRounds toy (memOpener PE toyTexts linkE) properI (n + 2)
      ((fetchRun [9] [2] [] [⟨[22], 8, text2⟩, ⟨[21], 7, text1⟩], fun _ => ([44], true)) :: later) (Db.new.run properI toyOps) storeB =
        some (db', B', false :: later.map fun _ => false) ∧ db'.messages = [] := by
  have hlen : many.length = 310 := List.length_replicate
  have hok : ∀ r ∈ many, r.OK PE _ := fun r hr => by rw [many_eq hr]; exact roundE_ok _ _ _
  have hfits : ∀ r ∈ many, r.Fits PE linkE := fun r hr => by rw [many_eq hr]; exact roundE_fits _ _ (by simp) _
  have hdiff : Msg.FirstDifferent PE linkE many := by
    intro r hr
    obtain rfl : roundE 1 [120] false = r := Option.some.inj hr
    decide +kernel
  have hap : ∀ r ∈ many[309]?, Msg.Apart PE linkE many r [44] := by
    intro r hr
    obtain rfl := many_eq (List.mem_of_getElem? hr)
    refine ⟨?_, fun r' hr' hn => ?_⟩
    · show Msg.AllDifferent [_, _, PE.dhPub [20, 1], _, _]
      decide +kernel
    · rw [many_eq hr'] at hn; cases hn
  obtain ⟨ws, A', hsend⟩ := Msg.sendAll_succeeds PE_good linkE_ok many hok hfits hdiff (by rw [hlen]; decide) senderA storeB startA
  obtain ⟨hl, hsent⟩ := Msg.sendAll_sent PE_good linkE_ok many hok hdiff (by rw [hlen]; decide) senderA storeB A' startA ws hsend
  have hnym : nymOf PE linkE senderA = toyNa := by unfold nymOf; rw [startA.stA]; rfl
  have hrun := sendRun_mem PE_good toyTexts linkE_ok many hok senderA A' toy_plainNym ws hsend
  have trav : ∀ i r, many[i]? = some r → ∃ text to, Travels toyWorld toyLook toyNa (ws.getD i []) toyTrip text to := by
    intro i r hi
    obtain ⟨ss, -, -, s1, s2, s3⟩ := hsent i r hi
    rw [s3]
    exact toy_travels _ (messageBytes_length PE_good (hok r (List.mem_of_getElem? hi)).rnd s1 _ _ _ s2)
  obtain ⟨text1, to1, t1⟩ := trav 0 _ (List.getElem?_eq_getElem (by rw [hlen]; decide))
  obtain ⟨text2, to2, t2⟩ := trav 309 _ (List.getElem?_eq_getElem (by rw [hlen]; decide))
  refine ⟨text1, text2, ?_⟩
  obtain ⟨ms, A'', m1, m2, m3⟩ := C143_blocked_violated (I := properI) PE_good (fun _ => rfl) toyTexts rfl ⟨[], 101, by decide +kernel, by decide, by decide +kernel⟩ emarshal_parse linkE _ linkE_ok
    many hok hfits hdiff (by rw [hlen]; decide) senderA storeB startA toyWorld toy_good (by simp [properI]) [9] [2] toyOps _ [] (toy_history text1 text2)
    (by intro op hop; simp only [toyOps, List.mem_cons, List.not_mem_nil, or_false] at hop; rcases hop with rfl | rfl | rfl <;> simp [ValidType])
    rfl 1 1 rfl toyAcc toyOps_account [] rfl [⟨[22], 8, text2⟩, ⟨[21], 7, text1⟩] ⟨List.prefix_rfl, fun m hm _ => hm⟩ [toyMix] toyParams toyParams_fits rfl 10 0 [8]
    (List.replicate 32 3) [109] (by simp) toy_newNymAddress toyLook toyLook_all (fun _ => ([44], true))
  rw [hrun] at m1
  cases m1
  intro n later hlater
  obtain ⟨db', B', r1, r2⟩ := m3 (309, toyTrip, ⟨[22], 8, text2⟩) [(0, toyTrip, ⟨[21], 7, text1⟩)] rfl (show (Msg.effKeys linkE.nB).toNat ≤ 309 by decide) (show 301 < Msg.roundUp 309 (Msg.effKeys linkE.nB).toNat by decide) hap
    (by
      have hw : ∀ i, i < 310 → (ws.map fun w => (w, nymOf PE linkE senderA))[i]? = some (ws.getD i [], toyNa) := by
        intro i hi
        rw [List.getElem?_map, hnym, List.getD_eq_getElem?_getD]
        cases hws : ws[i]? with
        | none =>
          have := List.getElem?_eq_none_iff.mp hws
          omega
        | some w => rfl
      intro x hx
      simp only [List.mem_cons, List.not_mem_nil, or_false] at hx
      rcases hx with rfl | rfl
      · exact ⟨_, to2, hw 309 (by decide), toyTrip_fine, t2⟩
      · exact ⟨_, to1, hw 0 (by decide), toyTrip_fine, t1⟩) n later hlater
  exact ⟨db', B', r1, r2.trans rfl⟩

end Verif.Ctrl.Journey
