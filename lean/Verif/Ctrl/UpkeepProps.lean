/-
Properties of the upkeep commands: which accounts are paid, what happens to the tokens, and how
often a command is executed.
-/
import Verif.Ctrl.Upkeep
import Verif.Ctrl.Contact

namespace Verif.Ctrl.Upkeep
open Verif.Sql Verif.Msgdb

variable {σ : Type} {I : Ids} {db db' : Db}

/-! ### the list of accounts -/

theorem contactNames_mem {u : Nat} {ids : List Nat} {l : List Bytes} (h : db.contactNames u ids = .ok l) (c : Bytes) :
    c ∈ l ↔ ∃ i ∈ ids, db.contactMapped u i = some c := by
  induction ids generalizing l with
  | nil => injection h with h; subst h; simp
  | cons i ids ih =>
    unfold Db.contactNames at h
    cases h1 : db.contactMapped u i with
    | none => simp only [h1] at h; cases h
    | some m =>
      simp only [h1] at h
      cases h2 : db.contactNames u ids with
      | error e => simp only [h2] at h; cases h
      | ok l' =>
        simp only [h2] at h
        injection h with h; subst h
        simp only [List.mem_cons, ih h2, exists_eq_or_imp, h1, Option.some.injEq]
        constructor
        · rintro (rfl | h)
          · exact .inl rfl
          · exact .inr h
        · rintro (rfl | h)
          · exact .inl rfl
          · exact .inr h

theorem contactMapped_some {u i : Nat} {c : Bytes} (h : db.contactMapped u i = some c) : ∃ k, (i, k) ∈ db.contacts ∧ k.myID = u ∧ k.mapped = c := by
  unfold Db.contactMapped at h
  obtain ⟨k, hk, h⟩ := Option.bind_eq_some_iff.mp h
  split at h
  · rename_i hu
    injection h with h
    exact ⟨k, byId_some hk, by simpa using hu, h⟩
  · cases h

theorem contactNames_nodup (hw : WF I db) {u : Nat} {ids : List Nat} {l : List Bytes} (h : db.contactNames u ids = .ok l) (hn : ids.Nodup) : l.Nodup := by
  induction ids generalizing l with
  | nil => injection h with h; subst h; simp
  | cons i ids ih =>
    unfold Db.contactNames at h
    cases h1 : db.contactMapped u i with
    | none => simp only [h1] at h; cases h
    | some m =>
      simp only [h1] at h
      cases h2 : db.contactNames u ids with
      | error e => simp only [h2] at h; cases h
      | ok l' =>
        simp only [h2] at h
        injection h with h; subst h
        rw [List.nodup_cons] at hn ⊢
        refine ⟨fun hm => ?_, ih h2 hn.2⟩
        obtain ⟨j, hj, h3⟩ := (contactNames_mem h2 m).mp hm
        obtain ⟨k, hk, e1, e2⟩ := contactMapped_some h1
        obtain ⟨k', hk', e1', e2'⟩ := contactMapped_some h3
        have := hw.contactUnique _ hk _ hk' (e1.trans e1'.symm) (e2.trans e2'.symm)
        injection this with this _
        exact hn.1 (this ▸ hj)

theorem nodup_zero {ids : List Nat} (h : ids.Nodup) : ((ids.filter (· == 0)).map fun _ => ([] : Bytes)).Nodup := by
  induction ids with
  | nil => simp
  | cons i ids ih =>
    rw [List.nodup_cons] at h
    by_cases hi : i = 0
    · subst hi
      have : ids.filter (· == 0) = [] := by
        rw [List.filter_eq_nil_iff]
        intro j hj hj0
        have : j = 0 := by simpa using hj0
        exact h.1 (this ▸ hj)
      simp [this]
    · rw [List.filter_cons_of_neg (by simpa using hi)]
      exact ih h.2

/-- The list names every account of the nym, once. -/
theorem getAccounts_spec (hI : I.isMapped [] = false) (hw : WF I db) {my : Bytes} {l : List Bytes} (h : db.getAccounts I my = .ok l) :
    l.Nodup ∧ ∀ c a, db.getAccount I my c = .ok a → c ∈ l := by
  unfold Db.getAccounts at h
  split at h
  · cases h
  split at h
  · cases h
  rename_i u hu
  simp only at h
  split at h
  · cases h
  rename_i names hn
  injection h with h; subst h
  have hid : ((select (fun a : Account => a.myID == u) db.accounts).map fun r => r.2.contactID).Nodup := by
    refine List.pairwise_map.mpr ?_
    refine List.Pairwise.imp_of_mem ?_ (List.Pairwise.filter _ hw.accounts.1)
    intro r s hr hs hlt he
    have hr' := List.mem_filter.mp hr
    have hs' := List.mem_filter.mp hs
    have := hw.accountUnique r hr'.1 s hs'.1 (by rw [show r.2.myID = u by simpa using hr'.2, show s.2.myID = u by simpa using hs'.2]) he
    rw [this] at hlt
    omega
  constructor
  · refine List.nodup_append.mpr ⟨nodup_zero hid, contactNames_nodup hw hn (hid.filter _), ?_⟩
    intro x hx y hy
    obtain ⟨_, _, rfl⟩ := List.mem_map.mp hx
    rintro rfl
    obtain ⟨i, _, hi⟩ := (contactNames_mem hn _).mp hy
    obtain ⟨k, hk, _, e⟩ := contactMapped_some hi
    have := (hw.contactFits _ hk).1
    rw [e, hI] at this
    cases this
  · intro c a ha
    unfold Db.getAccount at ha
    split at ha
    · cases ha
    rename_i u' v hp
    split at ha
    · cases ha
    rename_i r hr
    obtain ⟨h1, h2⟩ := pair_ok hp
    simp only at h1 h2
    rw [hu] at h1
    injection h1 with h1; subst h1
    obtain ⟨m1, m2⟩ := first_mem hr
    simp only [isAccount, Bool.and_eq_true, beq_iff_eq] at m2
    have hmem : v ∈ (select (fun a : Account => a.myID == u) db.accounts).map fun r => r.2.contactID :=
      List.mem_map.mpr ⟨r, List.mem_filter.mpr ⟨m1, by simpa using m2.1⟩, m2.2⟩
    rw [List.mem_append]
    split at h2
    · rename_i hc
      subst hc; subst h2
      exact .inl (List.mem_map.mpr ⟨0, List.mem_filter.mpr ⟨hmem, rfl⟩, rfl⟩)
    · rename_i hc
      obtain ⟨k, hk, e1, e2⟩ := contactUID_some h2
      have hv : v ≠ 0 := Nat.pos_iff_ne_zero.mp (hw.contacts.2 _ hk)
      refine .inr ((contactNames_mem hn _).mpr ⟨v, List.mem_filter.mpr ⟨hmem, by simpa using hv⟩, ?_⟩)
      have := contactMapped_mem hw hk
      rw [e1, e2] at this
      exact this

/-! ### the loop -/

/-- A call to pay for the account with this key. -/
def tries (k : Bytes) : Ev → Bool
  | .paid k' _ => k' == k
  | .refused k' _ => k' == k
  | _ => false

/-- A token was used to pay. -/
def spends (t : Bytes) : Ev → Bool
  | .paid _ t' => t' == t
  | _ => false

/-- Every token that was taken is deleted if it was used, and free again otherwise. -/
def Settled (log : List Ev) : Prop :=
  ∀ t, log.count (.took t) = log.count (.gone t) + log.count (.freed t) ∧ log.count (.gone t) = log.countP (spends t)

theorem Block.settled {k : Bytes} {l : List Ev} (h : Block k l) : Settled l := by
  intro t
  cases h with
  | paid t' => by_cases ht : t' = t <;> simp [spends, ht]
  | refused t' => by_cases ht : t' = t <;> simp [spends, ht]

theorem Settled.append {l l' : List Ev} (h : Settled l) (h' : Settled l') : Settled (l ++ l') := by
  intro t
  have a := h t
  have b := h' t
  simp only [List.count_append, List.countP_append]
  omega

theorem Block.tries {k k' : Bytes} {l : List Ev} (h : Block k l) : l.countP (tries k') = if k = k' then 1 else 0 := by
  cases h <;> by_cases hk : k = k' <;> simp [Upkeep.tries, hk]

/-- The accounts of the nym have different keys. -/
def KeysDiffer (I : Ids) (my : Bytes) (db : Db) : Prop :=
  ∀ c c' a a', db.getAccount I my c = .ok a → db.getAccount I my c' = .ok a' → a.privkey = a'.privkey → c = c'

theorem accounts_spec {E : Env σ} (hE : Mono E) {my : Bytes} {remain : Int} (l : List Bytes) (hl : l.Nodup) {s : St σ} (hw : WF I s.db) :
    WF I (accounts E I my remain s l).1.db ∧
    E.clock s.w ≤ E.clock (accounts E I my remain s l).1.w ∧
    (accounts E I my remain s l).1.db.nyms = s.db.nyms ∧
    (∀ c, c ∉ l → (accounts E I my remain s l).1.db.getAccount I my c = s.db.getAccount I my c) ∧
    (∀ c a, s.db.getAccount I my c = .ok a → ∃ t, (accounts E I my remain s l).1.db.getAccount I my c = .ok { a with loadTime := t }) ∧
    ∃ new, (accounts E I my remain s l).1.log = s.log ++ new ∧ Settled new ∧
      (∀ k, (∀ c ∈ l, ∀ a, s.db.getAccount I my c = .ok a → a.privkey ≠ k) → new.countP (tries k) = 0) ∧
      (KeysDiffer I my s.db → ∀ c a, s.db.getAccount I my c = .ok a → new.countP (tries a.privkey) ≤ 1 ∧
        (a.loadTime ≠ 0 → unix (E.clock (accounts E I my remain s l).1.w) + remain.tdiv 1000000000 < a.loadTime → new.countP (tries a.privkey) = 0)) ∧
      ((accounts E I my remain s l).2 = .ok () → ∀ c ∈ l, ∃ a, (accounts E I my remain s l).1.db.getAccount I my c = .ok a ∧
        (((∃ t, .paid a.privkey t ∈ new) ∧ ∃ w, (E.stat w a.server a.privkey).2 = some a.loadTime) ∨
          unix (E.clock s.w) + remain.tdiv 1000000000 < a.loadTime)) := by
  induction l generalizing s with
  | nil =>
    exact ⟨hw, Int.le_refl _, rfl, fun _ _ => rfl, fun c a h => ⟨a.loadTime, h⟩, [], by simp [accounts], fun t => by simp, fun _ _ => rfl,
      fun _ _ _ _ => ⟨Nat.zero_le _, fun _ _ => rfl⟩, by simp⟩
  | cons c l ih =>
    rw [List.nodup_cons] at hl
    unfold accounts
    cases hc : s.db.getAccount I my c with
    | error e =>
      have : account E I my remain s c = (s, .error (.db e)) := by unfold account; simp only [hc]
      simp only [this]
      exact ⟨hw, Int.le_refl _, trivial, fun _ _ => trivial, fun c a h => ⟨a.loadTime, h⟩, [], by simp, fun t => by simp, fun _ _ => rfl,
        fun _ _ _ _ => ⟨Nat.zero_le _, fun _ _ => rfl⟩, nofun⟩
    | ok a =>
      obtain ⟨f, new, g1, g2, g3, g4⟩ := account_spec (remain := remain) hE hw hc
      have sn : Settled new := by
        rcases g2 with rfl | b
        · intro t; simp
        · exact b.settled
      have tn : ∀ k, a.privkey ≠ k → new.countP (tries k) = 0 := fun k hk => by
        rcases g2 with rfl | b
        · rfl
        · rw [b.tries, if_neg hk]
      have t1 : ∀ k, new.countP (tries k) ≤ 1 := fun k => by
        rcases g2 with rfl | b
        · simp
        · rw [b.tries]; split <;> omega
      cases hr : account E I my remain s c with
      | mk s1 r =>
        rw [hr] at f g1 g3 g4
        simp only at g1 g3 g4
        cases r with
        | error e =>
          refine ⟨f.wf, f.time, f.nyms, fun x hx => f.other x fun h => hx (h ▸ .head _), fun x b hb => ?_, new, g1, sn, fun k hk => tn k (hk c (.head _) a hc),
            fun hd x b hb => ⟨t1 _, fun h0 h1 => ?_⟩, nofun⟩
          · by_cases hx : x = c
            · subst hx; exact f.own b hb
            · exact ⟨b.loadTime, (f.other x hx).trans hb⟩
          · by_cases hx : x = c
            · subst hx
              rw [hc] at hb; injection hb with hb; subst hb
              rw [g3 h0 h1]; rfl
            · exact tn _ fun he => hx (hd c x a b hc hb he).symm
        | ok _ =>
          obtain ⟨i1, i2, i3, i4, i5, new', j1, j2, j3, j4, j5⟩ := ih hl.2 (s := s1) f.wf
          simp only
          obtain ⟨t0, ht0⟩ := f.own a hc
          have old : ∀ x b, s1.db.getAccount I my x = .ok b → ∃ b', s.db.getAccount I my x = .ok b' ∧ b'.privkey = b.privkey := fun x b hb => by
            by_cases hx : x = c
            · subst hx
              rw [ht0] at hb; injection hb with hb; subst hb
              exact ⟨a, hc, rfl⟩
            · exact ⟨b, (f.other x hx).symm.trans hb, rfl⟩
          have hd1 : KeysDiffer I my s.db → KeysDiffer I my s1.db := fun hd x y b b' hb hb' e => by
            obtain ⟨d, hd', e1⟩ := old x b hb
            obtain ⟨d', hd'', e2⟩ := old y b' hb'
            exact hd x y d d' hd' hd'' (by rw [e1, e2, e])
          refine ⟨i1, Int.le_trans f.time i2, i3.trans f.nyms, fun x hx => ?_, fun x b hb => ?_, new ++ new', ?_, sn.append j2, fun k hk => ?_, fun hd x b hb => ?_, fun hok => ?_⟩
          · rw [List.mem_cons, not_or] at hx
            rw [i4 x hx.2, f.other x hx.1]
          · by_cases hx : x = c
            · subst hx
              obtain ⟨t, ht⟩ := f.own b hb
              obtain ⟨t', ht'⟩ := i5 x _ ht
              exact ⟨t', ht'⟩
            · exact i5 x b ((f.other x hx).trans hb)
          · rw [j1, g1, List.append_assoc]
          · rw [List.countP_append, tn k (hk c (.head _) a hc), j3 k fun x hx b hb => ?_]
            obtain ⟨d, hd', e1⟩ := old x b hb
            rw [← e1]
            exact hk x (.tail _ hx) d hd'
          · have hk : x = c → new'.countP (tries b.privkey) = 0 := fun hx => by
              subst hx
              rw [hc] at hb; injection hb with hb; subst hb
              refine j3 _ fun y hy d hd' he => ?_
              obtain ⟨d', hd'', e1⟩ := old y d hd'
              have := hd y x d' a hd'' hc (by rw [e1, he])
              exact hl.1 (this ▸ hy)
            have hk' : x ≠ c → new.countP (tries b.privkey) = 0 := fun hx => tn _ fun he => hx (hd c x a b hc hb he).symm
            rw [List.countP_append]
            by_cases hx : x = c
            · rw [hk hx]
              refine ⟨t1 _, fun h0 h1 => ?_⟩
              subst hx
              rw [hc] at hb; injection hb with hb; subst hb
              rw [g3 h0 (by have := unix_mono i2; omega)]; rfl
            · rw [hk' hx]
              have := j4 (hd1 hd) x b ((f.other x hx).trans hb)
              refine ⟨by omega, fun h0 h1 => ?_⟩
              have := this.2 h0 h1
              omega
          · intro x hx
            rcases List.mem_cons.mp hx with rfl | hx
            · rcases g4 rfl with ⟨⟨t, ht⟩, w, t', hs, ht'⟩ | ⟨t, ht, hlt⟩
              · rw [← i4 x hl.1] at ht'
                exact ⟨_, ht', .inl ⟨⟨t, List.mem_append.mpr (.inl ht)⟩, w, hs⟩⟩
              · rw [← i4 x hl.1] at ht
                exact ⟨_, ht, .inr hlt⟩
            · obtain ⟨b, hb, hh⟩ := j5 hok x hx
              refine ⟨b, hb, ?_⟩
              rcases hh with ⟨⟨t, ht⟩, hs⟩ | hh
              · exact .inl ⟨⟨t, List.mem_append.mpr (.inr ht)⟩, hs⟩
              · have := unix_mono f.time
                simp only at this
                exact .inr (by omega)

theorem execute_cases {E : Env σ} {my : Bytes} {remaining : Option Int} {now : Int} {s : St σ} :
    (∃ e, execute E I my remaining now s = (s, .error e)) ∨
    ∃ remain l, remaining = some remain ∧ s.db.getAccounts I my = .ok l ∧
      ((∃ e, execute E I my remaining now s = ((accounts E I my remain s l).1, .error e)) ∨
      ((accounts E I my remain s l).2 = .ok () ∧ ∃ db', (accounts E I my remain s l).1.db.setUpkeepAccounts I my now = .ok db' ∧
        execute E I my remaining now s = ({ (accounts E I my remain s l).1 with db := db' }, .ok true))) := by
  unfold execute
  split
  · exact .inl ⟨_, rfl⟩
  rename_i remain
  split
  · exact .inl ⟨_, rfl⟩
  rename_i l hl
  refine .inr ⟨remain, l, rfl, hl, ?_⟩
  cases ha : accounts E I my remain s l with
  | mk s1 r =>
    cases r with
    | error e => exact .inl ⟨e, rfl⟩
    | ok _ =>
      simp only
      cases hd : s1.db.setUpkeepAccounts I my now with
      | error e => exact .inl ⟨_, rfl⟩
      | ok db' => exact .inr ⟨trivial, db', rfl, rfl⟩

theorem check_some {clock : Int} {period : Option Int} {past : Except Err Int} {now : Int} (h : checkExecution clock period past = .ok (some now)) :
    now = unix clock ∧ ∃ d, period = some d ∧ (d = 0 ∨ ∃ x, past = .ok x ∧ (x = 0 ∨ x * 1000000000 + d ≤ clock)) := by
  unfold checkExecution at h
  split at h
  · cases h
  rename_i d
  split at h
  · rename_i hd
    injection h with h; injection h with h
    exact ⟨h.symm, d, rfl, .inl hd⟩
  split at h
  · cases h
  rename_i x
  split at h
  · cases h
  · rename_i hx
    injection h with h; injection h with h
    refine ⟨h.symm, d, rfl, .inr ⟨x, rfl, ?_⟩⟩
    by_cases h0 : x = 0
    · exact .inl h0
    · exact .inr (by omega)

theorem run_cases {E : Env σ} {id my : Bytes} {period : Option Int} {remain : Int} {s : St σ} (hm : I.map id = some my) :
    (∃ r, upkeepAccounts E I id period (some remain) s = (s, r) ∧ r ≠ .ok true) ∨
    ∃ l, s.db.getAccounts I my = .ok l ∧
      ((∃ e, upkeepAccounts E I id period (some remain) s = ((accounts E I my remain s l).1, .error e)) ∨
      ((accounts E I my remain s l).2 = .ok () ∧ ∃ db', (accounts E I my remain s l).1.db.setUpkeepAccounts I my (unix (E.clock s.w)) = .ok db' ∧
        upkeepAccounts E I id period (some remain) s = ({ (accounts E I my remain s l).1 with db := db' }, .ok true))) := by
  unfold upkeepAccounts
  simp only [hm]
  split
  · exact .inl ⟨_, rfl, nofun⟩
  · exact .inl ⟨_, rfl, nofun⟩
  rename_i now hn
  obtain ⟨rfl, _⟩ := check_some hn
  rcases execute_cases (E := E) (I := I) (my := my) (remaining := some remain) (now := unix (E.clock s.w)) (s := s) with ⟨e, h⟩ | ⟨x, l, e, hl, h⟩
  · rw [h]; exact .inl ⟨_, rfl, nofun⟩
  · injection e with e; subst e
    exact .inr ⟨l, hl, h⟩

/-! ## C107: the accounts are kept paid -/

/-- After a successful run every account of the nym is paid for longer than the given time, or it
was paid in this run and the time recorded is what its server said. -/
theorem C107_kept {E : Env σ} (hE : Mono E) (hI : I.isMapped [] = false) {s s' : St σ} (h : Reached I s.db) (id my : Bytes) (hm : I.map id = some my)
    (period : Option Int) (remain : Int) (hr : upkeepAccounts E I id period (some remain) s = (s', .ok true)) :
    ∃ new, s'.log = s.log ++ new ∧ ∀ c a, s.db.getAccount I my c = .ok a → ∃ t, s'.db.getAccount I my c = .ok { a with loadTime := t } ∧
      (((∃ k, .paid a.privkey k ∈ new) ∧ ∃ w, (E.stat w a.server a.privkey).2 = some t) ∨ unix (E.clock s.w) + remain.tdiv 1000000000 < t) := by
  rcases run_cases (E := E) (period := period) (remain := remain) (s := s) hm with ⟨r, h1, h2⟩ | ⟨l, hl, ⟨e, h1⟩ | ⟨hok, db', h1, h2⟩⟩
  · rw [h1] at hr; injection hr with _ hr; exact absurd hr h2
  · rw [h1] at hr; injection hr with _ hr; cases hr
  · rw [h2] at hr; injection hr with hr _; subst hr
    obtain ⟨n1, n2⟩ := getAccounts_spec hI h.wf hl
    obtain ⟨_, _, _, _, i5, new, j1, _, _, _, j5⟩ := accounts_spec hE (my := my) (remain := remain) l n1 h.wf
    refine ⟨new, j1, fun c a ha => ?_⟩
    obtain ⟨t, ht⟩ := i5 c a ha
    obtain ⟨b, hb, hh⟩ := j5 hok c (n2 c a ha)
    rw [ht] at hb; injection hb with hb; subst hb
    refine ⟨t, ?_, hh⟩
    simp only
    rw [setUpkeep_get h1, ht]

/-- In every run, successful or not: each token that was taken from the wallet is deleted if it was
used to pay, and free again otherwise. -/
theorem C107_tokens {E : Env σ} (hE : Mono E) (hI : I.isMapped [] = false) {s : St σ} (h : Reached I s.db) (id my : Bytes) (hm : I.map id = some my)
    (period : Option Int) (remain : Int) :
    ∃ new, (upkeepAccounts E I id period (some remain) s).1.log = s.log ++ new ∧ Settled new := by
  rcases run_cases (E := E) (period := period) (remain := remain) (s := s) hm with ⟨r, h1, h2⟩ | ⟨l, hl, ⟨e, h1⟩ | ⟨hok, db', h1, h2⟩⟩
  · rw [h1]; exact ⟨[], by simp, fun t => by simp⟩
  all_goals
    obtain ⟨n1, n2⟩ := getAccounts_spec hI h.wf hl
    obtain ⟨_, _, _, _, i5, new, j1, j2, _⟩ := accounts_spec hE (my := my) (remain := remain) l n1 h.wf
  · rw [h1]; exact ⟨new, j1, j2⟩
  · rw [h2]; exact ⟨new, j1, j2⟩

/-- In every run, successful or not, each account is paid for at most once, and not at all if it is
known to be paid for longer than the given time. -/
theorem C107_once {E : Env σ} (hE : Mono E) (hI : I.isMapped [] = false) {s : St σ} (h : Reached I s.db) (id my : Bytes) (hm : I.map id = some my)
    (hk : KeysDiffer I my s.db) (period : Option Int) (remain : Int) :
    ∃ new, (upkeepAccounts E I id period (some remain) s).1.log = s.log ++ new ∧ ∀ c a, s.db.getAccount I my c = .ok a →
      new.countP (tries a.privkey) ≤ 1 ∧
      (a.loadTime ≠ 0 → unix (E.clock (upkeepAccounts E I id period (some remain) s).1.w) + remain.tdiv 1000000000 < a.loadTime → new.countP (tries a.privkey) = 0) := by
  rcases run_cases (E := E) (period := period) (remain := remain) (s := s) hm with ⟨r, h1, h2⟩ | ⟨l, hl, ⟨e, h1⟩ | ⟨hok, db', h1, h2⟩⟩
  · rw [h1]; exact ⟨[], by simp, fun _ _ _ => ⟨Nat.zero_le _, fun _ _ => rfl⟩⟩
  all_goals
    obtain ⟨n1, n2⟩ := getAccounts_spec hI h.wf hl
    obtain ⟨_, _, _, _, i5, new, j1, _, _, j4, _⟩ := accounts_spec hE (my := my) (remain := remain) l n1 h.wf
  · rw [h1]; exact ⟨new, j1, j4 hk⟩
  · rw [h2]; exact ⟨new, j1, j4 hk⟩

/-! ### a world with one account -/

/-- An account that runs until `home` on its own server `[1]` and until `away` on the server where
payments go, `[2]`; the tokens of the wallet; the tokens the servers have seen; whether the next
answers get lost. -/
structure Toy where
  now : Int
  home : Int
  away : Int
  free : List Bytes
  held : List Bytes
  seen : List Bytes
  lost : List Bool
  deriving DecidableEq, Repr

/-- The world of the examples: a server refuses a token it has seen, a payment is for a hundred
seconds. -/
def toyE (main : Bytes) : Env Toy where
  clock w := w.now
  default := main
  token w := match w.free with
    | [] => (w, none)
    | t :: l => ({ w with free := l, held := t :: w.held }, some t)
  load w u _ t :=
    if t ∈ w.seen then (w, none)
    else
      let w1 := if u = [1] then { w with home := w.home + 100, seen := t :: w.seen } else { w with away := w.away + 100, seen := t :: w.seen }
      match w.lost with
      | true :: l => ({ w1 with lost := l }, none)
      | _ :: l => ({ w1 with lost := l }, some u)
      | [] => (w1, some u)
  stat w u _ :=
    match w.lost with
    | true :: l => ({ w with lost := l }, none)
    | _ :: l => ({ w with lost := l }, some (if u = [1] then w.home else w.away))
    | [] => (w, some (if u = [1] then w.home else w.away))
  unlock w t := { w with free := t :: w.free, held := w.held.filter (· != t) }
  del w t := { w with held := w.held.filter (· != t) }

theorem toyE_mono (main : Bytes) : Mono (toyE main) where
  token w := by simp only [toyE]; split <;> exact Int.le_refl _
  load w u k t := by
    simp only [toyE]
    split
    · exact Int.le_refl _
    · split <;> split <;> exact Int.le_refl _
  stat w u k := by simp only [toyE]; split <;> exact Int.le_refl _
  unlock w t := Int.le_refl _
  del w t := Int.le_refl _

/-- A nym with an account on the server `[1]` with the key `[9]`. -/
def toyOps : List Op := [.addNym [1, 64, 2] [1, 64, 2] [], .addAccount [1, 64, 2] [] [9] [1] [8] 0 0]

def toyS (w : Toy) : St Toy := ⟨w, Db.new.run plainI toyOps, []⟩

/-- The results of `n` runs without a period. -/
def runs (E : Env σ) (I : Ids) (id : Bytes) (remain : Int) : Nat → St σ → St σ × List (Except UErr Bool)
  | 0, s => (s, [])
  | n + 1, s =>
    let (s1, r) := upkeepAccounts E I id (some 0) (some remain) s
    let (s2, rs) := runs E I id remain n s1
    (s2, r :: rs)

/-- A run for a nym with one account that is due: the payment is refused, -/
theorem run_refused {E : Env σ} {id my c t : Bytes} {remain : Int} {s : St σ} {a : Account} {w w' : σ} (hm : I.map id = some my)
    (hl : s.db.getAccounts I my = .ok [c]) (ha : s.db.getAccount I my c = .ok a) (h0 : a.loadTime ≠ 0)
    (hd : a.loadTime ≤ unix (E.clock s.w) + remain.tdiv 1000000000) (ht : E.token s.w = (w, some t)) (hp : E.load w E.default a.privkey t = (w', none)) :
    upkeepAccounts E I id (some 0) (some remain) s = (⟨E.unlock w' t, s.db, s.log ++ [.took t, .refused a.privkey t, .freed t]⟩, .error .pay) := by
  have e : extend E I my c a s = (⟨E.unlock w' t, s.db, s.log ++ [.took t, .refused a.privkey t, .freed t]⟩, .error .pay) := by
    rw [extend_eq]
    simp only [ht, hp]
  simp only [upkeepAccounts, execute, hm, checkExecution, if_true, hl, accounts, account, ha, h0, if_false, if_pos hd, e]

/-- or accepted. -/
theorem run_accepted {E : Env σ} {id my c t v : Bytes} {remain x : Int} {s : St σ} {a : Account} {w w' w'' : σ} {db1 db2 : Db} (hm : I.map id = some my)
    (hl : s.db.getAccounts I my = .ok [c]) (ha : s.db.getAccount I my c = .ok a) (h0 : a.loadTime ≠ 0)
    (hd : a.loadTime ≤ unix (E.clock s.w) + remain.tdiv 1000000000) (ht : E.token s.w = (w, some t)) (hp : E.load w E.default a.privkey t = (w', some v))
    (hs : E.stat (E.del w' t) a.server a.privkey = (w'', some x)) (h1 : s.db.setAccountTime I my c x = .ok db1)
    (h2 : db1.setUpkeepAccounts I my (unix (E.clock s.w)) = .ok db2) :
    upkeepAccounts E I id (some 0) (some remain) s = (⟨w'', db2, s.log ++ [.took t, .paid a.privkey t, .gone t]⟩, .ok true) := by
  have e : extend E I my c a s = (⟨w'', db1, s.log ++ [.took t, .paid a.privkey t, .gone t]⟩, .ok ()) := by
    rw [extend_eq]
    simp only [ht, hp, refresh, hs, h1]
  simp only [upkeepAccounts, execute, hm, checkExecution, if_true, hl, accounts, account, ha, h0, if_false, if_pos hd, e, h2]

/-- The database after the account was looked at once at the time 5, with an expiry at 20. -/
def toyDb : Db := ((Db.new.run plainI toyOps).step plainI (.setAccountTime [1, 64, 2] [] 20)).step plainI (.setUpkeepAccounts [1, 64, 2] 5)

example : upkeepAccounts (toyE [1]) plainI [1, 64, 2] (some 0) (some 5000000000) (toyS ⟨5000000000, 20, 0, [[7], [6]], [], [], []⟩) =
    (⟨⟨5000000000, 20, 0, [[7], [6]], [], [], []⟩, toyDb, []⟩, .ok true) := by rfl

/-- The examples pay, and the theorems above hold of them. -/
example : (upkeepAccounts (toyE [1]) plainI [1, 64, 2] (some 0) (some 50000000000) (toyS ⟨5000000000, 20, 0, [[7], [6]], [], [], []⟩)).2 = .ok true ∧
    (upkeepAccounts (toyE [1]) plainI [1, 64, 2] (some 0) (some 50000000000) (toyS ⟨5000000000, 20, 0, [[7], [6]], [], [], []⟩)).1.log =
      [.took [7], .paid [9] [7], .gone [7]] ∧ Reached plainI (toyS ⟨5000000000, 20, 0, [[7], [6]], [], [], []⟩).db := ⟨rfl, rfl, toyOps, rfl⟩

/-- Violated: a payment goes to the default account server, not to the server of the account. If
that is another one, the account is never extended: each run succeeds, uses up a token, and the
account still ends at the same time. -/
theorem C107_other_server_violated (tokens : List Bytes) (seen : List Bytes) (away : Int) (log : List Ev) (hn : tokens.Nodup) (hs : ∀ t ∈ tokens, t ∉ seen) :
    ∃ s, runs (toyE [2]) plainI [1, 64, 2] 50000000000 tokens.length ⟨⟨5000000000, 20, away, tokens, [], seen, []⟩, toyDb, log⟩ =
        (s, List.replicate tokens.length (.ok true)) ∧
      s.w.home = 20 ∧ s.w.free = [] ∧ (∃ new, s.log = log ++ new ∧ ∀ t ∈ tokens, .gone t ∈ new) := by
  induction tokens generalizing seen away log with
  | nil => exact ⟨_, rfl, rfl, rfl, [], by simp, nofun⟩
  | cons t l ih =>
    rw [List.nodup_cons] at hn
    have hp : (toyE [2]).load ⟨5000000000, 20, away, l, [t], seen, []⟩ [2] [9] t = (⟨5000000000, 20, away + 100, l, [t], t :: seen, []⟩, some [2]) := by
      simp [toyE, hs t (.head _)]
    have hdel : (toyE [2]).del ⟨5000000000, 20, away + 100, l, [t], t :: seen, []⟩ t = ⟨5000000000, 20, away + 100, l, [], t :: seen, []⟩ := by
      simp [toyE]
    have step := run_accepted (E := toyE [2]) (I := plainI) (id := [1, 64, 2]) (my := [1, 64, 2]) (c := []) (t := t) (remain := 50000000000)
      (s := ⟨⟨5000000000, 20, away, t :: l, [], seen, []⟩, toyDb, log⟩) (a := ⟨1, 0, [9], [1], [8], 0, 0, 20, 0⟩) (db1 := toyDb) (db2 := toyDb)
      (w := ⟨5000000000, 20, away, l, [t], seen, []⟩) (w' := ⟨5000000000, 20, away + 100, l, [t], t :: seen, []⟩)
      (w'' := ⟨5000000000, 20, away + 100, l, [], t :: seen, []⟩) (x := 20) (v := [2])
      rfl rfl rfl (by decide) (show (20 : Int) ≤ unix 5000000000 + Int.tdiv _ _ by decide) rfl hp (by rw [hdel]; rfl) rfl rfl
    obtain ⟨s, h1, h2, h3, new, h4, h5⟩ := ih (t :: seen) (away + 100) (log ++ [.took t, .paid [9] t, .gone t]) hn.2 fun x hx => by
      rw [List.mem_cons, not_or]
      exact ⟨fun h => hn.1 (h ▸ hx), hs x (.tail _ hx)⟩
    refine ⟨s, ?_, h2, h3, [.took t, .paid [9] t, .gone t] ++ new, by rw [h4, List.append_assoc], fun x hx => ?_⟩
    · simp only [List.length_cons, runs, step, h1, List.replicate_succ]
    · rcases List.mem_cons.mp hx with rfl | hx
      · simp
      · exact List.mem_append.mpr (.inr (h5 x hx))

/-- Violated: if the answer to a payment gets lost, the token is free again and is the next one to
be taken; the server refuses it, so that all later runs fail, although the wallet has other tokens. -/
theorem C107_lost_answer_violated (n : Nat) (t : Bytes) (tokens log : List _) :
    ∃ s, runs (toyE [1]) plainI [1, 64, 2] 500000000000 (n + 1) ⟨⟨5000000000, 20, 0, t :: tokens, [], [], [true]⟩, toyDb, log⟩ =
        (s, List.replicate (n + 1) (.error .pay)) ∧ s.w.free = t :: tokens ∧ s.w.home = 120 ∧ s.db = toyDb := by
  have again : ∀ n log, ∃ s, runs (toyE [1]) plainI [1, 64, 2] 500000000000 n ⟨⟨5000000000, 120, 0, t :: tokens, [], [t], []⟩, toyDb, log⟩ =
        (s, List.replicate n (.error .pay)) ∧ s.w.free = t :: tokens ∧ s.w.home = 120 ∧ s.db = toyDb := by
    intro n
    induction n with
    | zero => exact fun log => ⟨_, rfl, rfl, rfl, rfl⟩
    | succ n ih =>
      intro log
      have hp : (toyE [1]).load ⟨5000000000, 120, 0, tokens, [t], [t], []⟩ [1] [9] t = (⟨5000000000, 120, 0, tokens, [t], [t], []⟩, none) := by
        simp [toyE]
      have step := run_refused (E := toyE [1]) (I := plainI) (id := [1, 64, 2]) (my := [1, 64, 2]) (c := []) (t := t) (remain := 500000000000)
        (s := ⟨⟨5000000000, 120, 0, t :: tokens, [], [t], []⟩, toyDb, log⟩) (a := ⟨1, 0, [9], [1], [8], 0, 0, 20, 0⟩)
        (w := ⟨5000000000, 120, 0, tokens, [t], [t], []⟩) rfl rfl rfl (by decide) (show (20 : Int) ≤ unix 5000000000 + Int.tdiv _ _ by decide) rfl hp
      have hu : (toyE [1]).unlock ⟨5000000000, 120, 0, tokens, [t], [t], []⟩ t = ⟨5000000000, 120, 0, t :: tokens, [], [t], []⟩ := by simp [toyE]
      rw [hu] at step
      obtain ⟨s, h1, h2⟩ := ih (log ++ [.took t, .refused [9] t, .freed t])
      exact ⟨s, by simp only [runs, step, h1, List.replicate_succ], h2⟩
  have hp : (toyE [1]).load ⟨5000000000, 20, 0, tokens, [t], [], [true]⟩ [1] [9] t = (⟨5000000000, 120, 0, tokens, [t], [t], []⟩, none) := by
    simp [toyE]
  have step := run_refused (E := toyE [1]) (I := plainI) (id := [1, 64, 2]) (my := [1, 64, 2]) (c := []) (t := t) (remain := 500000000000)
    (s := ⟨⟨5000000000, 20, 0, t :: tokens, [], [], [true]⟩, toyDb, log⟩) (a := ⟨1, 0, [9], [1], [8], 0, 0, 20, 0⟩)
    (w := ⟨5000000000, 20, 0, tokens, [t], [], [true]⟩) rfl rfl rfl (by decide) (show (20 : Int) ≤ unix 5000000000 + Int.tdiv _ _ by decide) rfl hp
  have hu : (toyE [1]).unlock ⟨5000000000, 120, 0, tokens, [t], [t], []⟩ t = ⟨5000000000, 120, 0, t :: tokens, [], [t], []⟩ := by simp [toyE]
  rw [hu] at step
  obtain ⟨s, h1, h2⟩ := again n (log ++ [.took t, .refused [9] t, .freed t])
  exact ⟨s, by simp only [runs, step, h1, List.replicate_succ], h2⟩

/-- Violated: if the answer to the question that follows a payment gets lost, the new time is not
recorded, and the next run pays again, although the first payment was enough. -/
theorem C107_paid_again_violated :
    (runs (toyE [1]) plainI [1, 64, 2] 50000000000 2 ⟨⟨5000000000, 20, 0, [[7], [6]], [], [], [false, true]⟩, toyDb, []⟩).1.log =
        [.took [7], .paid [9] [7], .gone [7], .took [6], .paid [9] [6], .gone [6]] ∧
      (runs (toyE [1]) plainI [1, 64, 2] 50000000000 2 ⟨⟨5000000000, 20, 0, [[7], [6]], [], [], [false, true]⟩, toyDb, []⟩).2 = [.error .stat, .ok true] ∧
      (runs (toyE [1]) plainI [1, 64, 2] 50000000000 1 ⟨⟨5000000000, 20, 0, [[7], [6]], [], [], [false, true]⟩, toyDb, []⟩).1.w.home = 120 :=
  ⟨rfl, rfl, rfl⟩

/-- Violated: an account whose server does not answer keeps all accounts after it from being paid.
If its time is not known yet, no run does anything, whatever the rest of the world does. -/
theorem C107_blocked_violated (E : Env σ) (id my c : Bytes) (l : List Bytes) (a : Account) (remain : Int) (s : St σ) (hm : I.map id = some my)
    (hl : s.db.getAccounts I my = .ok (c :: l)) (ha : s.db.getAccount I my c = .ok a) (h0 : a.loadTime = 0)
    (hs : ∀ w, (E.stat w a.server a.privkey).2 = none) (n : Nat) :
    ∃ w, runs E I id remain n s = (⟨w, s.db, s.log⟩, List.replicate n (.error .stat)) := by
  induction n generalizing s with
  | zero => exact ⟨s.w, rfl⟩
  | succ n ih =>
    have step : upkeepAccounts E I id (some 0) (some remain) s = (⟨(E.stat s.w a.server a.privkey).1, s.db, s.log⟩, .error .stat) := by
      have e : refresh E I my c a s = (⟨(E.stat s.w a.server a.privkey).1, s.db, s.log⟩, .error .stat) := by
        unfold refresh
        have := hs s.w
        cases h : E.stat s.w a.server a.privkey with
        | mk w o =>
          rw [h] at this
          simp only at this
          subst this
          rfl
      simp only [upkeepAccounts, execute, hm, checkExecution, if_true, hl, accounts, account, ha, h0, e]
    obtain ⟨w, hw⟩ := ih ⟨(E.stat s.w a.server a.privkey).1, s.db, s.log⟩ hl ha
    exact ⟨w, by simp only [runs, step, hw, List.replicate_succ]⟩

/-- A nym with two accounts, the first one on a server that does not answer. -/
def twoAccounts : Db :=
  Db.new.run plainI (toyOps ++ [.addContact [1, 64, 2] [3, 64, 2] [3, 64, 2] [] 0, .addAccount [1, 64, 2] [3, 64, 2] [5] [4] [8] 0 0])

example : ∃ w, runs { toyE [1] with stat := fun w u _ => (w, if u = [1] then none else some 3) } plainI [1, 64, 2] 50000000000 7
      ⟨⟨5000000000, 20, 0, [[7]], [], [], []⟩, twoAccounts, []⟩ = (⟨w, twoAccounts, []⟩, List.replicate 7 (.error .stat)) :=
  C107_blocked_violated _ _ [1, 64, 2] [] [[3, 64, 2]] ⟨1, 0, [9], [1], [8], 0, 0, 0, 0⟩ _ _ rfl rfl rfl rfl (fun _ => rfl) 7

/-- Violated: `upkeep all` asks `upkeep accounts` to see to ninety days, but with its own period. If
`upkeep accounts` was called for a shorter time before, nothing is done and `upkeep all` counts as
executed: here with an account that ends in ten seconds and a period of a hundred. -/
theorem C107_all_violated :
    (upkeepAccounts (toyE [1]) plainI [1, 64, 2] (some 100000000000) (some 1000000000) (toyS ⟨10500000000, 20, 0, [[7]], [], [], []⟩)).2 = .ok true ∧
    (upkeepAll (toyE [1]) plainI [1, 64, 2] (some 100000000000)
      (upkeepAccounts (toyE [1]) plainI [1, 64, 2] (some 100000000000) (some 1000000000) (toyS ⟨10500000000, 20, 0, [[7]], [], [], []⟩)).1).2 = .ok true ∧
    (upkeepAll (toyE [1]) plainI [1, 64, 2] (some 100000000000)
      (upkeepAccounts (toyE [1]) plainI [1, 64, 2] (some 100000000000) (some 1000000000) (toyS ⟨10500000000, 20, 0, [[7]], [], [], []⟩)).1).1.log = [] ∧
    (upkeepAll (toyE [1]) plainI [1, 64, 2] (some 100000000000) (toyS ⟨10500000000, 20, 0, [[7]], [], [], []⟩)).1.log =
      [.took [7], .paid [9] [7], .gone [7]] := ⟨rfl, rfl, rfl, rfl⟩

/-! ## C106: how often a command is executed -/

/-- `upkeep accounts` does nothing because it is not due exactly if it was executed less than a
period ago, from the second on that was recorded. -/
theorem C106_not_due (E : Env σ) (id my : Bytes) (hm : I.map id = some my) (d : Int) (remaining : Option Int) (s : St σ) (x : Int)
    (hx : s.db.getUpkeepAccounts I my = .ok x) :
    ((upkeepAccounts E I id (some d) remaining s).2 = .ok false ↔ d ≠ 0 ∧ x ≠ 0 ∧ E.clock s.w < x * 1000000000 + d) ∧
    ((upkeepAccounts E I id (some d) remaining s).2 = .ok false → (upkeepAccounts E I id (some d) remaining s).1 = s) := by
  have no : ∀ now, (execute E I my remaining now s).2 ≠ .ok false := fun now => by
    rcases execute_cases (E := E) (I := I) (my := my) (remaining := remaining) (now := now) (s := s) with ⟨e, h⟩ | ⟨_, l, _, _, ⟨e, h⟩ | ⟨_, _, _, h⟩⟩ <;> rw [h] <;> nofun
  unfold upkeepAccounts checkExecution
  simp only [hm, hx]
  by_cases hd : d = 0
  · simp only [hd, if_true, ne_eq, not_true_eq_false, false_and, iff_false]
    exact ⟨no _, fun h => absurd h (no _)⟩
  · by_cases hc : x ≠ 0 ∧ E.clock s.w < x * 1000000000 + d
    · simp only [hd, if_false, if_pos hc]
      exact ⟨⟨fun _ => ⟨hd, hc⟩, fun _ => trivial⟩, fun _ => trivial⟩
    · simp only [hd, if_false, if_neg hc]
      exact ⟨⟨fun h => absurd h (no _), fun h => absurd h.2 hc⟩, fun h => absurd h (no _)⟩

/-- The operations on the database that leave the recorded time of the nym alone. -/
def KeepsRecord (my : Bytes) : Op → Prop
  | .setUpkeepAccounts m _ => m ≠ my
  | .delNym m => m ≠ my
  | _ => True

theorem nyms_apply (op : Op) (h1 : ∀ m u f, op ≠ .addNym m u f) (h2 : ∀ m, op ≠ .delNym m) (h3 : ∀ m t, op ≠ .setUpkeepAll m t) (h4 : ∀ m t, op ≠ .setUpkeepAccounts m t)
    (he : db.apply I op = .ok db') : db'.nyms = db.nyms := by
  cases op with
  | addNym m u f => exact absurd rfl (h1 m u f)
  | delNym m => exact absurd rfl (h2 m)
  | setUpkeepAll m t => exact absurd rfl (h3 m t)
  | setUpkeepAccounts m t => exact absurd rfl (h4 m t)
  | _ =>
    simp only [Db.apply, Db.addValue, Db.addContact, Db.removeContact,
      Db.addAccount, Db.setAccountTime, Db.setAccountLastMsg, Db.addMessage, Db.readMessage, Db.delMessage, Db.addOutQueue,
      Db.setOutQueue, Db.removeOutQueue, Db.retractOutQueue, Db.setResend, Db.clearResend, Db.addInQueue, Db.setInQueue,
      Db.removeInQueue, Db.delInQueue, Db.addCache, Db.removeCache] at he
    repeat' split at he
    all_goals first
      | cases he; done
      | (injection he with he; subst he; rfl)

theorem record_nyms (hn : db'.nyms = db.nyms) (my : Bytes) : db'.getUpkeepAccounts I my = db.getUpkeepAccounts I my := by
  unfold Db.getUpkeepAccounts
  rw [hn]

theorem record_update {my : Bytes} {x : Int} (p : Nym → Bool) (f : Nym → Nym) (hm : ∀ n, (f n).mapped = n.mapped)
    (hf : ∀ n, n.mapped = my → p n = true → (f n).upkeepAccounts = n.upkeepAccounts)
    (h : db.getUpkeepAccounts I my = .ok x) : ({ db with nyms := update p f db.nyms } : Db).getUpkeepAccounts I my = .ok x := by
  unfold Db.getUpkeepAccounts at h ⊢
  split at h
  · cases h
  rename_i hi
  rw [if_neg hi]
  simp only
  rw [first_update _ _ _ _ fun a _ => by simp only [hm]]
  split at h
  · cases h
  rename_i r hr
  rw [hr]
  injection h with h; subst h
  simp only [Option.map_some]
  split
  · rename_i hp
    rw [hf _ (by simpa using (first_mem hr).2) hp]
  · rfl

theorem record_step (hw : WF I db) {my : Bytes} {x : Int} (op : Op) (ho : KeepsRecord my op) (h : db.getUpkeepAccounts I my = .ok x) :
    (db.step I op).getUpkeepAccounts I my = .ok x := by
  unfold Db.step
  cases he : db.apply I op with
  | error e => exact h
  | ok db' =>
    simp only
    by_cases h1 : ∃ m u f, op = .addNym m u f
    · obtain ⟨m, u, f, rfl⟩ := h1
      simp only [Db.apply] at he
      unfold Db.addNym at he
      repeat' split at he
      all_goals first
        | cases he; done
        | skip
      · injection he with he; subst he
        unfold Db.getUpkeepAccounts at h ⊢
        split at h
        · cases h
        rename_i hi
        rw [if_neg hi]
        split at h
        · cases h
        rename_i r hr
        simp only [first_insert_some hr]
        exact h
      · injection he with he; subst he
        exact record_update _ _ (fun _ => rfl) (fun _ _ _ => rfl) h
    · by_cases h2 : ∃ m, op = .delNym m
      · obtain ⟨m, rfl⟩ := h2
        simp only [Db.apply] at he
        obtain ⟨u, n, hn, rfl, rfl⟩ := delNym_ok he
        unfold Db.getUpkeepAccounts at h ⊢
        rw [cascade_first_nym hw hn (Ne.symm ho)]
        exact h
      · by_cases h3 : ∃ m t, op = .setUpkeepAll m t
        · obtain ⟨m, t, rfl⟩ := h3
          simp only [Db.apply] at he
          unfold Db.setUpkeepAll at he
          split at he
          · cases he
          injection he with he; subst he
          exact record_update _ _ (fun _ => rfl) (fun _ _ _ => rfl) h
        · by_cases h4 : ∃ m t, op = .setUpkeepAccounts m t
          · obtain ⟨m, t, rfl⟩ := h4
            simp only [Db.apply] at he
            unfold Db.setUpkeepAccounts at he
            split at he
            · cases he
            injection he with he; subst he
            refine record_update _ _ (fun _ => rfl) (fun n hn hp => ?_) h
            exact absurd ((eq_of_beq hp).symm.trans hn) ho
          · rw [record_nyms (nyms_apply op (fun m u f e => h1 ⟨m, u, f, e⟩) (fun m e => h2 ⟨m, e⟩) (fun m t e => h3 ⟨m, t, e⟩) (fun m t e => h4 ⟨m, t, e⟩) he)]
            exact h

theorem record_set {my : Bytes} {t : Int} {u : Nat} (hu : db.nymUID my = some u) (h : db.setUpkeepAccounts I my t = .ok db') : db'.getUpkeepAccounts I my = .ok t := by
  unfold Db.setUpkeepAccounts at h
  split at h
  · cases h
  rename_i hi
  injection h with h; subst h
  unfold Db.getUpkeepAccounts
  rw [if_neg hi]
  obtain ⟨r, hr, _⟩ := Option.map_eq_some_iff.mp hu
  simp only
  rw [first_update _ _ _ _ fun a _ => by rfl, hr]
  simp only [Option.map_some, (first_mem hr).2, if_true]

/-- A history of the control engine: calls of `upkeep accounts`, and anything else that leaves the
recorded time of the nym `my` alone. The list has the times and periods of the calls for the nym
that were executed successfully, with the last one first. -/
inductive History (E : Env σ) (I : Ids) (my : Bytes) : St σ → List (Int × Int) → Prop
  | start (s : St σ) : Reached I s.db → 1000000000 ≤ E.clock s.w → History E I my s []
  | executed (s s' : St σ) (l : List (Int × Int)) (id : Bytes) (d remain : Int) : History E I my s l → I.map id = some my →
      upkeepAccounts E I id (some d) (some remain) s = (s', .ok true) → History E I my s' ((E.clock s.w, d) :: l)
  | failed (s s' : St σ) (l : List (Int × Int)) (id : Bytes) (d remain : Int) (e : UErr) : History E I my s l → I.map id = some my →
      upkeepAccounts E I id (some d) (some remain) s = (s', .error e) → History E I my s' l
  | other (s : St σ) (w : σ) (log : List Ev) (l : List (Int × Int)) (op : Op) : History E I my s l → E.clock s.w ≤ E.clock w → KeepsRecord my op →
      History E I my ⟨w, s.db.step I op, log⟩ l

theorem accounts_reached {E : Env σ} {my : Bytes} {remain : Int} (l : List Bytes) {s : St σ} (h : Reached I s.db) : Reached I (accounts E I my remain s l).1.db := by
  have hr : ∀ (s : St σ) c a, Reached I s.db → Reached I (refresh E I my c a s).1.db := fun s c a h => by
    unfold refresh
    split
    · exact h
    split
    · exact h
    · rename_i hd
      exact h.apply (.setAccountTime my c _) hd
  have he : ∀ (s : St σ) c a, Reached I s.db → Reached I (extend E I my c a s).1.db := fun s c a h => by
    rw [extend_eq]
    split
    · exact h
    split
    · exact h
    · split
      all_goals
        rename_i hq
        exact Eq.mp (congrArg (fun z : St σ × Except UErr Int => Reached I z.1.db) hq) (hr _ c a (by exact h))
  have ha : ∀ (s : St σ) c, Reached I s.db → Reached I (account E I my remain s c).1.db := fun s c h => by
    unfold account
    split
    · exact h
    rename_i a _
    have h2 : Reached I (if a.loadTime = 0 then refresh E I my c a s else (s, .ok a.loadTime)).1.db := by
      split
      · exact hr _ _ _ h
      · exact h
    split
    · rename_i hq
      rw [hq] at h2; exact h2
    · rename_i hq
      rw [hq] at h2
      split
      · exact he _ _ _ h2
      · exact h2
  induction l generalizing s with
  | nil => exact h
  | cons c l ih =>
    unfold accounts
    have := ha s c h
    split
    · rename_i hq; rw [hq] at this; exact this
    · rename_i hq; rw [hq] at this; exact ih this

/-- Between two successful executions of `upkeep accounts` for a nym there is at least the period of
the second one, less one second. -/
theorem C106_period_partial {E : Env σ} (hE : Mono E) (hI : I.isMapped [] = false) {my : Bytes} {s : St σ} {l : List (Int × Int)} (h : History E I my s l) :
    l.Pairwise fun later earlier => earlier.1 + later.2 - 1000000000 < later.1 := by
  have inv : ∀ {s : St σ} {l : List (Int × Int)}, History E I my s l → Reached I s.db ∧ 1000000000 ≤ E.clock s.w ∧ (∀ e ∈ l, e.1 ≤ E.clock s.w) ∧
      (l ≠ [] → ∃ x, s.db.getUpkeepAccounts I my = .ok x ∧ x ≠ 0 ∧ ∀ e ∈ l, e.1 < (x + 1) * 1000000000) ∧
      l.Pairwise fun later earlier => earlier.1 + later.2 - 1000000000 < later.1 := by
    intro s l h
    induction h with
    | start s h1 h2 => exact ⟨h1, h2, nofun, fun h => absurd rfl h, .nil⟩
    | executed s s' l id d remain h hm hr ih =>
      obtain ⟨i1, i2, i3, i4, i5⟩ := ih
      unfold upkeepAccounts at hr
      simp only [hm] at hr
      split at hr
      · cases hr
      · cases hr
      rename_i now hn
      obtain ⟨rfl, d', e, hn⟩ := check_some hn
      injection e with e; subst e
      rcases execute_cases (E := E) (I := I) (my := my) (remaining := some remain) (now := unix (E.clock s.w)) (s := s) with ⟨e, h⟩ | ⟨x, ids, e, hl, ⟨e', h⟩ | ⟨hok, db', h1, h2⟩⟩
      · rw [h] at hr; cases hr
      · rw [h] at hr; cases hr
      injection e with e; subst e
      rw [h2] at hr; injection hr with hr _; subst hr
      have hids := getAccounts_spec hI i1.wf hl
      obtain ⟨a1, a2, a3, _⟩ := accounts_spec hE (my := my) (remain := remain) ids hids.1 i1.wf
      obtain ⟨u, hu⟩ : ∃ u, s.db.nymUID my = some u := by
        unfold Db.getAccounts at hl
        split at hl
        · cases hl
        split at hl
        · cases hl
        · rename_i u hu; exact ⟨u, hu⟩
      have hu' : (accounts E I my remain s ids).1.db.nymUID my = some u := by
        unfold Db.nymUID at hu ⊢
        rw [a3]; exact hu
      refine ⟨(accounts_reached ids i1).apply (.setUpkeepAccounts my _) h1, Int.le_trans i2 a2, ?_, fun _ => ⟨_, record_set hu' h1, ?_, ?_⟩, ?_⟩
      · intro e he
        rcases List.mem_cons.mp he with rfl | he
        · exact a2
        · exact Int.le_trans (i3 e he) a2
      · unfold unix; omega
      · intro e he
        have : e.1 ≤ E.clock s.w := by
          rcases List.mem_cons.mp he with rfl | he
          · exact Int.le_refl _
          · exact i3 e he
        unfold unix
        omega
      · refine List.pairwise_cons.mpr ⟨fun e he => ?_, i5⟩
        have := i3 e he
        simp only
        rcases hn with rfl | ⟨x, hx, hn⟩
        · omega
        · obtain ⟨y, hy, y0, y1⟩ := i4 (List.ne_nil_of_mem he)
          rw [hx] at hy; injection hy with hy; subst hy
          have := y1 e he
          omega
    | failed s s' l id d remain e h hm hr ih =>
      obtain ⟨i1, i2, i3, i4, i5⟩ := ih
      rcases run_cases (E := E) (period := some d) (remain := remain) (s := s) hm with ⟨r, h1, h2⟩ | ⟨ids, hl, ⟨e', h1⟩ | ⟨_, _, _, h2⟩⟩
      · rw [h1] at hr; injection hr with hr _; subst hr
        exact ⟨i1, i2, i3, i4, i5⟩
      · rw [h1] at hr; injection hr with hr _; subst hr
        have hids := getAccounts_spec hI i1.wf hl
        obtain ⟨a1, a2, a3, _⟩ := accounts_spec hE (my := my) (remain := remain) ids hids.1 i1.wf
        refine ⟨accounts_reached ids i1, Int.le_trans i2 a2, fun e he => Int.le_trans (i3 e he) a2, fun hn => ?_, i5⟩
        rw [record_nyms a3]
        exact i4 hn
      · rw [h2] at hr; injection hr with _ hr; cases hr
    | other s w log l op h hc ho ih =>
      obtain ⟨i1, i2, i3, i4, i5⟩ := ih
      refine ⟨?_, Int.le_trans i2 hc, fun e he => Int.le_trans (i3 e he) hc, fun hn => ?_, i5⟩
      · obtain ⟨ops, h⟩ := i1
        exact ⟨ops ++ [op], by rw [h]; simp [Db.run]⟩
      · obtain ⟨x, hx, hh⟩ := i4 hn
        exact ⟨x, record_step i1.wf op ho hx, hh⟩
  exact (inv h).2.2.2.2

/-- A call that fails is not recorded. -/
theorem C106_failed_not_recorded {E : Env σ} (hE : Mono E) (hI : I.isMapped [] = false) {s s' : St σ} (h : Reached I s.db) (id my : Bytes) (hm : I.map id = some my)
    (d remain : Int) (e : UErr) (hr : upkeepAccounts E I id (some d) (some remain) s = (s', .error e)) :
    s'.db.getUpkeepAccounts I my = s.db.getUpkeepAccounts I my := by
  rcases run_cases (E := E) (period := some d) (remain := remain) (s := s) hm with ⟨r, h1, h2⟩ | ⟨ids, hl, ⟨e', h1⟩ | ⟨_, _, _, h2⟩⟩
  · rw [h1] at hr; injection hr with hr _; subst hr; rfl
  · rw [h1] at hr; injection hr with hr _; subst hr
    have hids := getAccounts_spec hI h.wf hl
    obtain ⟨a1, a2, a3, _⟩ := accounts_spec hE (my := my) (remain := remain) ids hids.1 h.wf
    exact record_nyms a3 my
  · rw [h2] at hr; injection hr with _ hr; cases hr

/-- The database after an execution at the time 100, with an expiry at 500. -/
def toyDb' : Db := ((Db.new.run plainI toyOps).step plainI (.setAccountTime [1, 64, 2] [] 500)).step plainI (.setUpkeepAccounts [1, 64, 2] 100)

/-- A history with executions at 100.9 and 110 seconds. -/
theorem toy_history : ∃ s, History (toyE [1]) plainI [1, 64, 2] s [(110000000000, 10000000000), (100900000000, 10000000000)] := by
  have h0 : History (toyE [1]) plainI [1, 64, 2] (toyS ⟨100900000000, 500, 0, [], [], [], []⟩) [] := .start _ ⟨toyOps, rfl⟩ (by decide)
  have h1 : History (toyE [1]) plainI [1, 64, 2] ⟨⟨100900000000, 500, 0, [], [], [], []⟩, toyDb', []⟩ [(100900000000, 10000000000)] :=
    .executed _ _ _ [1, 64, 2] 10000000000 0 h0 rfl rfl
  have h2 : History (toyE [1]) plainI [1, 64, 2] ⟨⟨110000000000, 500, 0, [], [], [], []⟩, toyDb'.step plainI (.addValue [5] [6]), []⟩ [(100900000000, 10000000000)] :=
    .other _ ⟨110000000000, 500, 0, [], [], [], []⟩ [] _ (.addValue [5] [6]) h1 (by decide) trivial
  exact ⟨⟨⟨110000000000, 500, 0, [], [], [], []⟩, (toyDb'.step plainI (.addValue [5] [6])).step plainI (.setUpkeepAccounts [1, 64, 2] 110), []⟩,
    .executed _ _ _ [1, 64, 2] 10000000000 0 h2 rfl rfl⟩

/-- Violated: a command can be executed again before the period is over, by less than a second. -/
theorem C106_period_violated : ∃ (s : St Toy) (later earlier : Int × Int), History (toyE [1]) plainI [1, 64, 2] s [later, earlier] ∧
    later.1 - earlier.1 < later.2 := by
  obtain ⟨s, h⟩ := toy_history
  exact ⟨s, _, _, h, by decide⟩

/-- C106 for `upkeep all`: it does nothing because it is not due exactly if it was executed less
than a period ago. If it is executed, `upkeep accounts` was successful for ninety days, and the
second of the execution is recorded. If `upkeep accounts` fails, so does `upkeep all`, and nothing
more is done. -/
theorem C106_all (E : Env σ) (id my : Bytes) (hm : I.map id = some my) (d : Int) (s : St σ) (x : Int)
    (hx : s.db.getUpkeepAll I my = .ok x) :
    ((upkeepAll E I id (some d) s).2 = .ok false ↔ d ≠ 0 ∧ x ≠ 0 ∧ E.clock s.w < x * 1000000000 + d) ∧
    ((upkeepAll E I id (some d) s).2 = .ok false → (upkeepAll E I id (some d) s).1 = s) ∧
    ((upkeepAll E I id (some d) s).2 = .ok true →
      (∃ b, (upkeepAccounts E I id (some d) (some (2160 * 3600 * 1000000000)) s).2 = .ok b) ∧
      ∀ y, (upkeepAll E I id (some d) s).1.db.getUpkeepAll I my = .ok y → y = unix (E.clock s.w)) ∧
    (∀ e, (upkeepAccounts E I id (some d) (some (2160 * 3600 * 1000000000)) s).2 = .error e → (upkeepAll E I id (some d) s).2 ≠ .ok false →
      upkeepAll E I id (some d) s = upkeepAccounts E I id (some d) (some (2160 * 3600 * 1000000000)) s) := by
  have hmap : I.isMapped my = true := by
    unfold Db.getUpkeepAll at hx
    cases hq : I.isMapped my with
    | true => rfl
    | false => rw [hq] at hx; cases hx
  have main : ∀ now, ∃ r, r = (match upkeepAccounts E I id (some d) (some ninetyDays) s with
      | (s, .error e) => (s, .error e)
      | (s, .ok _) =>
        match s.db.setUpkeepAll I my now with
        | .error e => (s, .error (.db e))
        | .ok db => ({ s with db }, .ok true) : St σ × Except UErr Bool) ∧ r.2 ≠ .ok false ∧
      (r.2 = .ok true → (∃ b, (upkeepAccounts E I id (some d) (some (2160 * 3600 * 1000000000)) s).2 = .ok b) ∧
        ∀ y, r.1.db.getUpkeepAll I my = .ok y → y = now) ∧
      (∀ e, (upkeepAccounts E I id (some d) (some (2160 * 3600 * 1000000000)) s).2 = .error e → r = upkeepAccounts E I id (some d) (some (2160 * 3600 * 1000000000)) s) := by
    intro now
    refine ⟨_, rfl, ?_⟩
    have hn : ninetyDays = 2160 * 3600 * 1000000000 := rfl
    rw [← hn]
    cases hq : upkeepAccounts E I id (some d) (some ninetyDays) s with
    | mk s1 r1 =>
      cases r1 with
      | error e => exact ⟨nofun, nofun, fun _ _ => rfl⟩
      | ok b =>
        simp only [Db.setUpkeepAll, hmap, Bool.true_eq_false, if_false]
        refine ⟨nofun, fun _ => ⟨⟨b, rfl⟩, fun y hy => ?_⟩, nofun⟩
        unfold Db.getUpkeepAll at hy
        rw [hmap, if_neg (by decide), first_update _ _ _ _ fun a _ => by rfl] at hy
        cases hf : first (fun n : Nym => n.mapped == my) s1.db.nyms with
        | none => rw [hf] at hy; cases hy
        | some r =>
          rw [hf] at hy
          simp only [Option.map_some, (first_mem hf).2, if_true] at hy
          injection hy with hy; exact hy.symm
  unfold upkeepAll checkExecution
  simp only [hm, hx]
  obtain ⟨r, hr, m1, m2, m3⟩ := main (unix (E.clock s.w))
  subst hr
  by_cases hd : d = 0
  · simp only [if_pos hd]
    exact ⟨⟨fun h => absurd h m1, fun h => absurd hd h.1⟩, fun h => absurd h m1, m2, fun e he _ => m3 e he⟩
  · by_cases hc : x ≠ 0 ∧ E.clock s.w < x * 1000000000 + d
    · simp only [hd, if_false, if_pos hc]
      exact ⟨⟨fun _ => ⟨hd, hc⟩, fun _ => trivial⟩, fun _ => trivial, nofun, fun _ _ h => absurd rfl h⟩
    · simp only [hd, if_false, if_neg hc]
      exact ⟨⟨fun h => absurd h m1, fun h => absurd h.2 hc⟩, fun h => absurd h m1, m2, fun e he _ => m3 e he⟩

/-- Non-vacuity: a nym for which `upkeep all` is executed at the time 10. -/
example : (toyS ⟨10500000000, 20, 0, [[7]], [], [], []⟩).db.getUpkeepAll plainI [1, 64, 2] = .ok 0 ∧
    (upkeepAll (toyE [1]) plainI [1, 64, 2] (some 100000000000) (toyS ⟨10500000000, 20, 0, [[7]], [], [], []⟩)).2 = .ok true ∧
    (upkeepAll (toyE [1]) plainI [1, 64, 2] (some 100000000000) (toyS ⟨10500000000, 20, 0, [[7]], [], [], []⟩)).1.db.getUpkeepAll plainI [1, 64, 2] = .ok 10 :=
  ⟨rfl, rfl, rfl⟩

end Verif.Ctrl.Upkeep
