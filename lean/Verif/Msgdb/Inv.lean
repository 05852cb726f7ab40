/-
The invariant of the message database: identifiers are unique and every reference between tables
leads to a row of the same nym.
-/
import Verif.Msgdb.Model

namespace Verif.Msgdb
open Verif.Sql

/-- There is a nym with this number. -/
def HasNym (db : Db) (u : Nat) : Prop := ∃ n, (u, n) ∈ db.nyms

/-- The contact with this number belongs to the nym. -/
def HasContact (db : Db) (u c : Nat) : Prop := ∃ k, (c, k) ∈ db.contacts ∧ k.myID = u

structure WF (I : Ids) (db : Db) : Prop where
  values : Sorted db.values
  nyms : Sorted db.nyms
  contacts : Sorted db.contacts
  accounts : Sorted db.accounts
  messages : Sorted db.messages
  outQueue : Sorted db.outQueue
  inQueue : Sorted db.inQueue
  cache : Sorted db.cache
  valueUnique : ∀ r ∈ db.values, ∀ s ∈ db.values, r.2.1 = s.2.1 → r = s
  nymUnique : ∀ r ∈ db.nyms, ∀ s ∈ db.nyms, r.2.mapped = s.2.mapped → r = s
  nymFits : ∀ r ∈ db.nyms, I.isMapped r.2.mapped = true ∧ I.map r.2.unmapped = some r.2.mapped ∧ r.2.unmapped ≠ []
  contactUnique : ∀ r ∈ db.contacts, ∀ s ∈ db.contacts, r.2.myID = s.2.myID → r.2.mapped = s.2.mapped → r = s
  contactFits : ∀ r ∈ db.contacts, I.isMapped r.2.mapped = true ∧ I.map r.2.unmapped = some r.2.mapped ∧ r.2.unmapped ≠ []
  contactNym : ∀ r ∈ db.contacts, HasNym db r.2.myID
  accountUnique : ∀ r ∈ db.accounts, ∀ s ∈ db.accounts, r.2.myID = s.2.myID → r.2.contactID = s.2.contactID → r = s
  accountNym : ∀ r ∈ db.accounts, HasNym db r.2.myID
  accountContact : ∀ r ∈ db.accounts, r.2.contactID = 0 ∨ HasContact db r.2.myID r.2.contactID
  messageNym : ∀ r ∈ db.messages, HasNym db r.2.self
  messagePeer : ∀ r ∈ db.messages, HasContact db r.2.self r.2.peer
  messageName : ∀ r ∈ db.messages, ∃ k, (r.2.peer, k) ∈ db.contacts ∧ k.mapped = if r.2.outgoing then r.2.to else r.2.from_
  outNym : ∀ r ∈ db.outQueue, HasNym db r.2.self
  outMessage : ∀ r ∈ db.outQueue, ∃ m, (r.2.msgID, m) ∈ db.messages
  inNym : ∀ r ∈ db.inQueue, HasNym db r.2.myID
  inContact : ∀ r ∈ db.inQueue, r.2.contactID = 0 ∨ HasContact db r.2.myID r.2.contactID
  cacheNym : ∀ r ∈ db.cache, HasNym db r.2.myID
  cacheContact : ∀ r ∈ db.cache, r.2.contactID = 0 ∨ HasContact db r.2.myID r.2.contactID

variable {I : Ids} {db db' : Db}

theorem wf_new : WF I Db.new where
  values := sorted_nil
  nyms := sorted_nil
  contacts := sorted_nil
  accounts := sorted_nil
  messages := sorted_nil
  outQueue := sorted_nil
  inQueue := sorted_nil
  cache := sorted_nil
  valueUnique := nofun
  nymUnique := nofun
  nymFits := nofun
  contactUnique := nofun
  contactFits := nofun
  contactNym := nofun
  accountUnique := nofun
  accountNym := nofun
  accountContact := nofun
  messageNym := nofun
  messagePeer := nofun
  messageName := nofun
  outNym := nofun
  outMessage := nofun
  inNym := nofun
  inContact := nofun
  cacheNym := nofun
  cacheContact := nofun

/-! ### tables with a key -/

section keyed
variable {α κ : Type} (k : α → κ)

/-- No two rows have the same key. -/
def UniqueKey (t : Table α) : Prop := ∀ r ∈ t, ∀ s ∈ t, k r.2 = k s.2 → r = s

variable {k}

theorem unique_filter {t : Table α} (h : UniqueKey k t) (p : Nat × α → Bool) : UniqueKey k (t.filter p) :=
  fun r hr s hs => h r (List.mem_filter.mp hr).1 s (List.mem_filter.mp hs).1

theorem unique_insert {t : Table α} (h : UniqueKey k t) {a : α} (hn : ∀ r ∈ t, k r.2 ≠ k a) : UniqueKey k (insert t a) := by
  intro r hr s hs e
  rcases mem_insert.mp hr with hr | rfl <;> rcases mem_insert.mp hs with hs | rfl
  · exact h r hr s hs e
  · exact absurd e (hn r hr)
  · exact absurd e.symm (hn s hs)
  · rfl

theorem unique_map {t : Table α} (h : UniqueKey k t) (f : Nat × α → Nat × α) (hf : ∀ r ∈ t, k (f r).2 = k r.2) : UniqueKey k (t.map f) := by
  intro r hr s hs e
  obtain ⟨r', hr', rfl⟩ := List.mem_map.mp hr
  obtain ⟨s', hs', rfl⟩ := List.mem_map.mp hs
  rw [hf r' hr', hf s' hs'] at e
  rw [h r' hr' s' hs' e]

theorem unique_update {t : Table α} (h : UniqueKey k t) (p : α → Bool) (f : α → α) (hf : ∀ a, p a = true → k (f a) = k a) : UniqueKey k (update p f t) :=
  unique_map h _ fun r _ => by
    by_cases hp : p r.2 = true
    · simp only [hp, if_true]; exact hf r.2 hp
    · simp only [hp, Bool.false_eq_true, if_false]

end keyed

theorem select_nil_iff {α : Type} {p : α → Bool} {t : Table α} : (select p t).length = 0 ↔ ∀ r ∈ t, p r.2 = false := by
  unfold select
  rw [List.length_eq_zero_iff, List.filter_eq_nil_iff]
  exact ⟨fun h r hr => by simpa using h r hr, fun h r hr => by simp [h r hr]⟩

/-- A row of an updated table comes from a row with the same number. -/
theorem of_update {α : Type} {p : α → Bool} {f : α → α} {t : Table α} {r : Nat × α} (h : r ∈ update p f t) :
    ∃ a, (r.1, a) ∈ t ∧ (r.2 = a ∨ (p a = true ∧ r.2 = f a)) := by
  rcases mem_update.mp h with ⟨h, _⟩ | ⟨a, h, hp, e⟩
  · exact ⟨r.2, h, .inl rfl⟩
  · exact ⟨a, h, .inr ⟨hp, congrArg Prod.snd e⟩⟩

theorem to_update {α : Type} (p : α → Bool) (f : α → α) {t : Table α} {i : Nat} {a : α} (h : (i, a) ∈ t) :
    ∃ b, (i, b) ∈ update p f t ∧ (b = a ∨ b = f a) := by
  by_cases hp : p a = true
  · exact ⟨f a, mem_update.mpr (.inr ⟨a, h, hp, rfl⟩), .inr rfl⟩
  · exact ⟨a, mem_update.mpr (.inl ⟨h, by simpa using hp⟩), .inl rfl⟩

theorem of_updateId {α : Type} {i : Nat} {f : α → α} {t : Table α} {r : Nat × α} (h : r ∈ updateId i f t) :
    ∃ a, (r.1, a) ∈ t ∧ (r.2 = a ∨ (r.1 = i ∧ r.2 = f a)) := by
  rcases mem_updateId.mp h with ⟨h, _⟩ | ⟨a, h, e⟩
  · exact ⟨r.2, h, .inl rfl⟩
  · exact ⟨a, by rw [e]; exact h, .inr ⟨congrArg Prod.fst e, congrArg Prod.snd e⟩⟩

theorem to_updateId {α : Type} (i : Nat) (f : α → α) {t : Table α} {j : Nat} {a : α} (h : (j, a) ∈ t) :
    ∃ b, (j, b) ∈ updateId i f t ∧ (b = a ∨ b = f a) := by
  by_cases hp : j = i
  · subst hp
    exact ⟨f a, mem_updateId.mpr (.inr ⟨a, h, rfl⟩), .inr rfl⟩
  · exact ⟨a, mem_updateId.mpr (.inl ⟨h, hp⟩), .inl rfl⟩

/-! ### look-ups -/

theorem nymUID_some {u : Nat} {m : Bytes} (h : db.nymUID m = some u) : ∃ n, (u, n) ∈ db.nyms ∧ n.mapped = m := by
  unfold Db.nymUID at h
  obtain ⟨r, hr, rfl⟩ := Option.map_eq_some_iff.mp h
  have := first_mem hr
  exact ⟨r.2, this.1, by simpa using this.2⟩

theorem nymUID_mem (hw : WF I db) {u : Nat} {n : Nym} (h : (u, n) ∈ db.nyms) : db.nymUID n.mapped = some u := by
  unfold Db.nymUID
  cases hf : first (fun k : Nym => k.mapped == n.mapped) db.nyms with
  | none =>
    have := List.find?_eq_none.mp hf (u, n) h
    simp at this
  | some r =>
    have h1 := first_mem hf
    rw [hw.nymUnique r h1.1 (u, n) h (by simpa using h1.2)]
    rfl

theorem contactUID_some {u c : Nat} {m : Bytes} (h : db.contactUID u m = some c) :
    ∃ k, (c, k) ∈ db.contacts ∧ k.myID = u ∧ k.mapped = m := by
  unfold Db.contactUID at h
  obtain ⟨r, hr, rfl⟩ := Option.map_eq_some_iff.mp h
  have := first_mem hr
  refine ⟨r.2, this.1, ?_⟩
  simpa [isContact] using this.2

theorem contactMapped_mem (hw : WF I db) {c : Nat} {k : Contact} (h : (c, k) ∈ db.contacts) : db.contactMapped k.myID c = some k.mapped := by
  unfold Db.contactMapped
  rw [byId_mem hw.contacts h]
  simp

theorem pair_ok {my c : Bytes} {r : Nat × Nat} (h : db.pair I my c = .ok r) :
    db.nymUID my = some r.1 ∧ (if c = [] then r.2 = 0 else db.contactUID r.1 c = some r.2) := by
  unfold Db.pair at h
  split at h
  · cases h
  split at h
  · cases h
  cases hu : db.nymUID my with
  | none => simp only [hu] at h; cases h
  | some u =>
    simp only [hu] at h
    split at h
    · rename_i hc
      injection h with h; subst h
      simp [hc]
    · rename_i hc
      split at h
      · cases h
      · rename_i hk
        injection h with h; subst h
        simp [hc, hk]

theorem pair_refs {my c : Bytes} {r : Nat × Nat} (h : db.pair I my c = .ok r) :
    HasNym db r.1 ∧ (r.2 = 0 ∨ HasContact db r.1 r.2) := by
  obtain ⟨h1, h2⟩ := pair_ok h
  obtain ⟨n, hn, _⟩ := nymUID_some h1
  refine ⟨⟨n, hn⟩, ?_⟩
  split at h2
  · exact .inl h2
  · obtain ⟨k, hk, e, _⟩ := contactUID_some h2
    exact .inr ⟨k, hk, e⟩

/-! ### the operations keep the invariant -/

/-- Changing the nyms without dropping any. -/
theorem WF.setNyms (h : WF I db) (t : Table Nym) (hs : Sorted t) (hk : ∀ u, HasNym db u → ∃ n, (u, n) ∈ t)
    (hu : ∀ r ∈ t, ∀ s ∈ t, r.2.mapped = s.2.mapped → r = s)
    (hf : ∀ r ∈ t, I.isMapped r.2.mapped = true ∧ I.map r.2.unmapped = some r.2.mapped ∧ r.2.unmapped ≠ []) : WF I { db with nyms := t } :=
  { h with
    nyms := hs
    nymUnique := hu
    nymFits := hf
    contactNym := fun r hr => hk _ (h.contactNym r hr)
    accountNym := fun r hr => hk _ (h.accountNym r hr)
    messageNym := fun r hr => hk _ (h.messageNym r hr)
    outNym := fun r hr => hk _ (h.outNym r hr)
    inNym := fun r hr => hk _ (h.inNym r hr)
    cacheNym := fun r hr => hk _ (h.cacheNym r hr) }

/-- Changing the contacts without dropping any. -/
theorem WF.setContacts (h : WF I db) (t : Table Contact) (hs : Sorted t) (hk' : ∀ c k, (c, k) ∈ db.contacts → ∃ k', (c, k') ∈ t ∧ k'.myID = k.myID ∧ k'.mapped = k.mapped)
    (hu : ∀ r ∈ t, ∀ s ∈ t, r.2.myID = s.2.myID → r.2.mapped = s.2.mapped → r = s)
    (hf : ∀ r ∈ t, I.isMapped r.2.mapped = true ∧ I.map r.2.unmapped = some r.2.mapped ∧ r.2.unmapped ≠ [])
    (hn : ∀ r ∈ t, HasNym db r.2.myID) : WF I { db with contacts := t } :=
  have hk : ∀ u c, HasContact db u c → ∃ k, (c, k) ∈ t ∧ k.myID = u := fun u c ⟨k, h1, h2⟩ => by
    obtain ⟨k', h3, h4, _⟩ := hk' c k h1
    exact ⟨k', h3, by rw [h4, h2]⟩
  { h with
    contacts := hs
    contactUnique := hu
    contactFits := hf
    contactNym := hn
    accountContact := fun r hr => (h.accountContact r hr).imp_right (hk _ _)
    messagePeer := fun r hr => hk _ _ (h.messagePeer r hr)
    messageName := fun r hr => by
      obtain ⟨k, h1, h2⟩ := h.messageName r hr
      obtain ⟨k', h3, _, h4⟩ := hk' _ k h1
      exact ⟨k', h3, by rw [h4, h2]⟩
    inContact := fun r hr => (h.inContact r hr).imp_right (hk _ _)
    cacheContact := fun r hr => (h.cacheContact r hr).imp_right (hk _ _) }

theorem contactKey {t : Table Contact} : UniqueKey (fun c : Contact => (c.myID, c.mapped)) t ↔
    ∀ r ∈ t, ∀ s ∈ t, r.2.myID = s.2.myID → r.2.mapped = s.2.mapped → r = s :=
  ⟨fun h r hr s hs a b => h r hr s hs (Prod.ext a b), fun h r hr s hs e => h r hr s hs (congrArg Prod.fst e) (congrArg Prod.snd e)⟩

theorem accountKey {t : Table Account} : UniqueKey (fun c : Account => (c.myID, c.contactID)) t ↔
    ∀ r ∈ t, ∀ s ∈ t, r.2.myID = s.2.myID → r.2.contactID = s.2.contactID → r = s :=
  ⟨fun h r hr s hs a b => h r hr s hs (Prod.ext a b), fun h r hr s hs e => h r hr s hs (congrArg Prod.fst e) (congrArg Prod.snd e)⟩

theorem wf_addValue {k v : Bytes} (h : WF I db) (he : db.addValue k v = .ok db') : WF I db' := by
  unfold Db.addValue at he
  split at he
  · cases he
  split at he
  · cases he
  split at he
  · rename_i hn
    injection he with he; subst he
    exact { h with
      values := sorted_insert h.values _
      valueUnique := unique_insert (k := fun r : Bytes × Bytes => r.1) h.valueUnique fun r hr => by
        simpa using select_nil_iff.mp hn r hr }
  · injection he with he; subst he
    exact { h with
      values := sorted_update h.values (fun r => r.1 == k) (fun r => (r.1, v))
      valueUnique := unique_update (k := fun r : Bytes × Bytes => r.1) h.valueUnique (fun r => r.1 == k) (fun r => (r.1, v)) fun a _ => rfl }

theorem wf_addNym {m u f : Bytes} (h : WF I db) (he : db.addNym I m u f = .ok db') : WF I db' := by
  unfold Db.addNym at he
  split at he
  · cases he
  split at he
  · cases he
  rename_i hu0
  split at he
  · cases he
  rename_i hm
  split at he
  · cases he
  rename_i hmu
  split at he
  · cases he
  have hfit : I.isMapped m = true ∧ I.map u = some m ∧ u ≠ [] := ⟨by simpa using hm, by simpa using hmu, hu0⟩
  split at he
  · rename_i hn
    injection he with he; subst he
    refine h.setNyms _ (sorted_insert h.nyms _) (fun u ⟨n, hn⟩ => ⟨n, mem_insert.mpr (.inl hn)⟩) ?_ ?_
    · exact unique_insert (k := fun r : Nym => r.mapped) h.nymUnique fun r hr => by simpa using select_nil_iff.mp hn r hr
    · intro r hr
      rcases mem_insert.mp hr with hr | rfl
      · exact h.nymFits r hr
      · exact hfit
  · injection he with he; subst he
    refine h.setNyms _ (sorted_update h.nyms _ _) (fun u ⟨n, hn⟩ => ?_) ?_ ?_
    · obtain ⟨b, hb, _⟩ := to_update _ _ hn
      exact ⟨b, hb⟩
    · exact unique_update (k := fun r : Nym => r.mapped) h.nymUnique _ _ fun a _ => rfl
    · intro r hr
      obtain ⟨a, ha, e | ⟨hp, e⟩⟩ := of_update hr
      · rw [e]; exact h.nymFits _ ha
      · rw [e]
        have : a.mapped = m := by simpa using hp
        simp only [this]
        exact hfit

theorem wf_upkeep (h : WF I db) (p : Nym → Bool) (f : Nym → Nym) (hf : ∀ n, (f n).mapped = n.mapped ∧ (f n).unmapped = n.unmapped) :
    WF I { db with nyms := update p f db.nyms } := by
  refine h.setNyms _ (sorted_update h.nyms _ _) (fun u ⟨n, hn⟩ => ?_) ?_ ?_
  · obtain ⟨b, hb, _⟩ := to_update _ _ hn
    exact ⟨b, hb⟩
  · exact unique_update (k := fun r : Nym => r.mapped) h.nymUnique _ _ fun a _ => (hf a).1
  · intro r hr
    obtain ⟨a, ha, e | ⟨hp, e⟩⟩ := of_update hr
    · rw [e]; exact h.nymFits _ ha
    · rw [e, (hf a).1, (hf a).2]
      exact h.nymFits _ ha

theorem wf_cascade (h : WF I db) (u : Nat) : WF I (db.cascade u) := by
  have kn : ∀ v, v ≠ u → HasNym db v → ∃ n, (v, n) ∈ deleteId u db.nyms := fun v hv ⟨n, hn⟩ => ⟨n, mem_deleteId.mpr ⟨hn, hv⟩⟩
  have kc : ∀ v c, v ≠ u → HasContact db v c → ∃ k, (c, k) ∈ delete (fun c : Contact => c.myID == u) db.contacts ∧ k.myID = v :=
    fun v c hv ⟨k, hk, e⟩ => ⟨k, mem_delete.mpr ⟨hk, by simp [e, hv]⟩, e⟩
  refine {
    values := h.values
    nyms := sorted_deleteId h.nyms _
    contacts := sorted_delete h.contacts (fun c => c.myID == u)
    accounts := sorted_delete h.accounts (fun a => a.myID == u)
    messages := sorted_delete h.messages (fun m => m.self == u)
    outQueue := sorted_delete h.outQueue (fun o => o.self == u || ((select (fun m : Message => m.self == u) db.messages).map Prod.fst).contains o.msgID)
    inQueue := sorted_delete h.inQueue (fun i => i.myID == u)
    cache := sorted_delete h.cache (fun c => c.myID == u)
    valueUnique := h.valueUnique
    nymUnique := unique_filter (k := fun r : Nym => r.mapped) h.nymUnique _
    nymFits := fun r hr => h.nymFits r (mem_deleteId.mp hr).1
    contactUnique := contactKey.mp (unique_filter (contactKey.mpr h.contactUnique) _)
    contactFits := fun r hr => h.contactFits r (mem_delete.mp (show r ∈ delete (fun c => c.myID == u) db.contacts from hr)).1
    contactNym := fun r hr => ?_
    accountUnique := accountKey.mp (unique_filter (accountKey.mpr h.accountUnique) _)
    accountNym := fun r hr => ?_
    accountContact := fun r hr => ?_
    messageNym := fun r hr => ?_
    messagePeer := fun r hr => ?_
    messageName := fun r hr => ?_
    outNym := fun r hr => ?_
    outMessage := fun r hr => ?_
    inNym := fun r hr => ?_
    inContact := fun r hr => ?_
    cacheNym := fun r hr => ?_
    cacheContact := fun r hr => ?_ }
  · simp only [Db.cascade] at hr
    obtain ⟨h1, h2⟩ := mem_delete.mp hr
    exact kn _ (by simpa using h2) (h.contactNym r h1)
  · simp only [Db.cascade] at hr
    obtain ⟨h1, h2⟩ := mem_delete.mp hr
    exact kn _ (by simpa using h2) (h.accountNym r h1)
  · simp only [Db.cascade] at hr
    obtain ⟨h1, h2⟩ := mem_delete.mp hr
    exact (h.accountContact r h1).imp_right (kc _ _ (by simpa using h2))
  · simp only [Db.cascade] at hr
    obtain ⟨h1, h2⟩ := mem_delete.mp hr
    exact kn _ (by simpa using h2) (h.messageNym r h1)
  · simp only [Db.cascade] at hr
    obtain ⟨h1, h2⟩ := mem_delete.mp hr
    exact kc _ _ (by simpa using h2) (h.messagePeer r h1)
  · simp only [Db.cascade] at hr ⊢
    obtain ⟨h1, h2⟩ := mem_delete.mp hr
    obtain ⟨k, hk, e⟩ := h.messageName r h1
    obtain ⟨k', hk', e'⟩ := h.messagePeer r h1
    have := sorted_unique h.contacts hk hk' rfl
    injection this with _ this
    subst this
    exact ⟨k, mem_delete.mpr ⟨hk, by rw [e']; exact h2⟩, e⟩
  · simp only [Db.cascade] at hr
    obtain ⟨h1, h2⟩ := mem_delete.mp hr
    exact kn _ (by simp at h2; exact h2.1) (h.outNym r h1)
  · simp only [Db.cascade] at hr
    obtain ⟨h1, h2⟩ := mem_delete.mp hr
    obtain ⟨m, hm⟩ := h.outMessage r h1
    refine ⟨m, ?_⟩
    simp only [Db.cascade]
    refine mem_delete.mpr ⟨hm, ?_⟩
    simp only [Bool.or_eq_false_iff] at h2
    have h2 := h2.2
    cases hs : m.self == u with
    | false => rfl
    | true =>
      have : r.2.msgID ∈ (select (fun m : Message => m.self == u) db.messages).map Prod.fst :=
        List.mem_map.mpr ⟨(r.2.msgID, m), List.mem_filter.mpr ⟨hm, hs⟩, rfl⟩
      rw [List.contains_iff_mem.mpr this] at h2
      cases h2
  · simp only [Db.cascade] at hr
    obtain ⟨h1, h2⟩ := mem_delete.mp hr
    exact kn _ (by simpa using h2) (h.inNym r h1)
  · simp only [Db.cascade] at hr
    obtain ⟨h1, h2⟩ := mem_delete.mp hr
    exact (h.inContact r h1).imp_right (kc _ _ (by simpa using h2))
  · simp only [Db.cascade] at hr
    obtain ⟨h1, h2⟩ := mem_delete.mp hr
    exact kn _ (by simpa using h2) (h.cacheNym r h1)
  · simp only [Db.cascade] at hr
    obtain ⟨h1, h2⟩ := mem_delete.mp hr
    exact (h.cacheContact r h1).imp_right (kc _ _ (by simpa using h2))

theorem delNym_ok {m : Bytes} (he : db.delNym I m = .ok db') : ∃ u n, (u, n) ∈ db.nyms ∧ n.mapped = m ∧ db' = db.cascade u := by
  unfold Db.delNym at he
  split at he
  · cases he
  split at he
  · cases he
  rename_i u n hf
  split at he
  · cases he
  split at he
  · cases he
  injection he with he
  have := first_mem hf
  exact ⟨u, n, this.1, by simpa using this.2, he.symm⟩

theorem wf_addContact {my m u f : Bytes} {ty : Int} (h : WF I db) (he : db.addContact I my m u f ty = .ok db') : WF I db' := by
  unfold Db.addContact at he
  split at he
  · cases he
  split at he
  · cases he
  rename_i hm
  split at he
  · cases he
  rename_i hu0
  split at he
  · cases he
  rename_i hmu
  have hfit : I.isMapped m = true ∧ I.map u = some m ∧ u ≠ [] := ⟨by simpa using hm, by simpa using hmu, hu0⟩
  split at he
  · cases he
  rename_i v hv
  obtain ⟨n, hn, _⟩ := nymUID_some hv
  split at he
  · rename_i hs
    injection he with he; subst he
    refine h.setContacts _ (sorted_insert h.contacts _) (fun c k hk => ⟨k, mem_insert.mpr (.inl hk), rfl, rfl⟩) ?_ ?_ ?_
    · refine contactKey.mp (unique_insert (contactKey.mpr h.contactUnique) fun r hr e => ?_)
      have h1 := select_nil_iff.mp hs r hr
      have e1 := congrArg Prod.fst e
      have e2 := congrArg Prod.snd e
      simp only at e1 e2
      simp [isContact, e1, e2] at h1
    · intro r hr
      rcases mem_insert.mp hr with hr | rfl
      · exact h.contactFits r hr
      · exact hfit
    · intro r hr
      rcases mem_insert.mp hr with hr | rfl
      · exact h.contactNym r hr
      · exact ⟨n, hn⟩
  · injection he with he; subst he
    refine h.setContacts _ (sorted_update h.contacts _ _) (fun c k hk => ?_) ?_ ?_ ?_
    · obtain ⟨b, hb, rfl | rfl⟩ := to_update _ _ hk
      · exact ⟨_, hb, rfl, rfl⟩
      · exact ⟨_, hb, rfl, rfl⟩
    · exact contactKey.mp (unique_update (contactKey.mpr h.contactUnique) _ _ fun _ _ => rfl)
    · intro r hr
      obtain ⟨a, ha, e | ⟨hp, e⟩⟩ := of_update hr
      · rw [e]; exact h.contactFits _ ha
      · rw [e]
        have : a.mapped = m := by simp [isContact] at hp; exact hp.2
        simp only [this]
        exact hfit
    · intro r hr
      obtain ⟨a, ha, e | ⟨hp, e⟩⟩ := of_update hr
      · rw [e]; exact h.contactNym _ ha
      · rw [e]; exact h.contactNym _ ha

theorem wf_removeContact {my m : Bytes} (h : WF I db) (he : db.removeContact I my m = .ok db') : WF I db' := by
  unfold Db.removeContact at he
  split at he
  · cases he
  split at he
  · cases he
  split at he
  · cases he
  injection he with he; subst he
  refine h.setContacts _ (sorted_update h.contacts _ _) (fun c k hk => ?_) ?_ ?_ ?_
  · obtain ⟨b, hb, rfl | rfl⟩ := to_update _ _ hk
    · exact ⟨_, hb, rfl, rfl⟩
    · exact ⟨_, hb, rfl, rfl⟩
  · exact contactKey.mp (unique_update (contactKey.mpr h.contactUnique) _ _ fun _ _ => rfl)
  · intro r hr
    obtain ⟨a, ha, e | ⟨hp, e⟩⟩ := of_update hr
    · rw [e]; exact h.contactFits _ ha
    · rw [e]; exact h.contactFits _ ha
  · intro r hr
    obtain ⟨a, ha, e | ⟨hp, e⟩⟩ := of_update hr
    · rw [e]; exact h.contactNym _ ha
    · rw [e]; exact h.contactNym _ ha

theorem wf_addAccount {my c k sv se : Bytes} {mi ma : Int} (h : WF I db) (he : db.addAccount I my c k sv se mi ma = .ok db') : WF I db' := by
  unfold Db.addAccount at he
  split at he
  · cases he
  rename_i u v hp
  obtain ⟨r1, r2⟩ := pair_refs hp
  split at he
  · cases he
  rename_i hs
  injection he with he; subst he
  exact { h with
    accounts := sorted_insert h.accounts _
    accountUnique := accountKey.mp (unique_insert (accountKey.mpr h.accountUnique) fun r hr e => by
      have h1 := select_nil_iff.mp (Decidable.not_not.mp hs) r hr
      have e1 := congrArg Prod.fst e
      have e2 := congrArg Prod.snd e
      simp only at e1 e2
      simp [isAccount, e1, e2] at h1)
    accountNym := fun r hr => by
      rcases mem_insert.mp hr with hr | rfl
      · exact h.accountNym r hr
      · exact r1
    accountContact := fun r hr => by
      rcases mem_insert.mp hr with hr | rfl
      · exact h.accountContact r hr
      · exact r2 }

theorem wf_account (h : WF I db) (p : Account → Bool) (f : Account → Account) (hf : ∀ n, (f n).myID = n.myID ∧ (f n).contactID = n.contactID) :
    WF I { db with accounts := update p f db.accounts } :=
  { h with
    accounts := sorted_update h.accounts _ _
    accountUnique := accountKey.mp (unique_update (accountKey.mpr h.accountUnique) _ _ fun a _ => Prod.ext (hf a).1 (hf a).2)
    accountNym := fun r hr => by
      obtain ⟨a, ha, e | ⟨_, e⟩⟩ := of_update hr
      · rw [e]; exact h.accountNym _ ha
      · rw [e, (hf a).1]; exact h.accountNym _ ha
    accountContact := fun r hr => by
      obtain ⟨a, ha, e | ⟨_, e⟩⟩ := of_update hr
      · rw [e]; exact h.accountContact _ ha
      · rw [e, (hf a).1, (hf a).2]; exact h.accountContact _ ha }

theorem wf_addMessage {s p m : Bytes} {d mi ma : Int} {b g : Bool} (h : WF I db) (he : db.addMessage I s p d b m g mi ma = .ok db') : WF I db' := by
  unfold Db.addMessage at he
  split at he
  · cases he
  split at he
  · cases he
  split at he
  · cases he
  rename_i u hu
  obtain ⟨n, hn, _⟩ := nymUID_some hu
  split at he
  · cases he
  rename_i c hc
  obtain ⟨k, hk, e, ek⟩ := contactUID_some hc
  injection he with he; subst he
  exact { h with
    messages := sorted_insert h.messages _
    messageNym := fun r hr => by
      rcases mem_insert.mp hr with hr | rfl
      · exact h.messageNym r hr
      · exact ⟨n, hn⟩
    messagePeer := fun r hr => by
      rcases mem_insert.mp hr with hr | rfl
      · exact h.messagePeer r hr
      · exact ⟨k, hk, e⟩
    messageName := fun r hr => by
      rcases mem_insert.mp hr with hr | rfl
      · exact h.messageName r hr
      · exact ⟨k, hk, by cases b <;> simp [ek]⟩
    outMessage := fun r hr => by
      obtain ⟨m, hm⟩ := h.outMessage r hr
      exact ⟨m, mem_insert.mpr (.inl hm)⟩ }

/-- Changing fields of messages other than the nym and the contact. -/
theorem wf_message (h : WF I db) (i : Nat) (f : Message → Message) (hf : ∀ n, ((f n).self = n.self ∧ (f n).peer = n.peer) ∧ (f n).outgoing = n.outgoing ∧ (f n).to = n.to ∧ (f n).from_ = n.from_) :
    WF I { db with messages := updateId i f db.messages } :=
  { h with
    messages := sorted_updateId h.messages _ _
    messageNym := fun r hr => by
      obtain ⟨a, ha, e | ⟨_, e⟩⟩ := of_updateId hr
      · rw [e]; exact h.messageNym _ ha
      · rw [e, (hf a).1.1]; exact h.messageNym _ ha
    messagePeer := fun r hr => by
      obtain ⟨a, ha, e | ⟨_, e⟩⟩ := of_updateId hr
      · rw [e]; exact h.messagePeer _ ha
      · rw [e, (hf a).1.1, (hf a).1.2]; exact h.messagePeer _ ha
    messageName := fun r hr => by
      obtain ⟨a, ha, e | ⟨_, e⟩⟩ := of_updateId hr
      · rw [e]; exact h.messageName _ ha
      · rw [e, (hf a).1.2, (hf a).2.1, (hf a).2.2.1, (hf a).2.2.2]; exact h.messageName _ ha
    outMessage := fun r hr => by
      obtain ⟨m, hm⟩ := h.outMessage r hr
      obtain ⟨b, hb, _⟩ := to_updateId i f hm
      exact ⟨b, hb⟩ }

theorem wf_delMessage {my : Bytes} {i : Nat} (h : WF I db) (he : db.delMessage I my i = .ok db') : WF I db' := by
  unfold Db.delMessage at he
  split at he
  · cases he
  split at he
  · cases he
  split at he
  · cases he
  split at he
  · injection he with he; subst he
    exact { h with
      messages := sorted_deleteId h.messages _
      messageNym := fun r hr => h.messageNym r (mem_deleteId.mp hr).1
      messagePeer := fun r hr => h.messagePeer r (mem_deleteId.mp hr).1
      messageName := fun r hr => h.messageName r (mem_deleteId.mp hr).1
      outQueue := sorted_delete h.outQueue (fun o => o.msgID == i)
      outNym := fun r hr => h.outNym r (mem_delete.mp (show r ∈ delete (fun o => o.msgID == i) db.outQueue from hr)).1
      outMessage := fun r hr => by
        obtain ⟨h1, h2⟩ := mem_delete.mp (show r ∈ delete (fun o => o.msgID == i) db.outQueue from hr)
        obtain ⟨m, hm⟩ := h.outMessage r h1
        exact ⟨m, mem_deleteId.mpr ⟨hm, by simpa using h2⟩⟩ }
  · cases he

theorem wf_out (h : WF I db) (t : Table OutEntry) (hs : Sorted t) (ht : ∀ r ∈ t, ∃ s ∈ db.outQueue, r.2.self = s.2.self ∧ r.2.msgID = s.2.msgID) :
    WF I { db with outQueue := t } :=
  { h with
    outQueue := hs
    outNym := fun r hr => by
      obtain ⟨s, hs, e, _⟩ := ht r hr
      rw [e]; exact h.outNym s hs
    outMessage := fun r hr => by
      obtain ⟨s, hs, _, e⟩ := ht r hr
      rw [e]; exact h.outMessage s hs }

theorem wf_out_updateId (h : WF I db) (i : Nat) (f : OutEntry → OutEntry) (hf : ∀ n, (f n).self = n.self ∧ (f n).msgID = n.msgID) :
    WF I { db with outQueue := updateId i f db.outQueue } :=
  wf_out h _ (sorted_updateId h.outQueue _ _) fun r hr => by
    obtain ⟨a, ha, e | ⟨_, e⟩⟩ := of_updateId hr
    · exact ⟨_, ha, by rw [e], by rw [e]⟩
    · exact ⟨_, ha, by rw [e, (hf a).1], by rw [e, (hf a).2]⟩

theorem wf_in (h : WF I db) (t : Table InEntry) (hs : Sorted t) (ht : ∀ r ∈ t, ∃ s ∈ db.inQueue, r.2.myID = s.2.myID ∧ r.2.contactID = s.2.contactID) :
    WF I { db with inQueue := t } :=
  { h with
    inQueue := hs
    inNym := fun r hr => by
      obtain ⟨s, hs, e, _⟩ := ht r hr
      rw [e]; exact h.inNym s hs
    inContact := fun r hr => by
      obtain ⟨s, hs, e, e'⟩ := ht r hr
      rw [e, e']; exact h.inContact s hs }

theorem wf_in_deleteId (h : WF I db) (i : Nat) : WF I { db with inQueue := deleteId i db.inQueue } :=
  wf_in h _ (sorted_deleteId h.inQueue _) fun r hr => ⟨r, (mem_deleteId.mp hr).1, rfl, rfl⟩

theorem wf_addOutQueue {my e a : Bytes} {i : Nat} {mi ma : Int} (h : WF I db) (he : db.addOutQueue I my i e a mi ma = .ok db') : WF I db' := by
  unfold Db.addOutQueue at he
  split at he
  · cases he
  split at he
  · cases he
  rename_i u hu
  obtain ⟨n, hn, _⟩ := nymUID_some hu
  split at he
  · cases he
  rename_i m hm
  injection he with he; subst he
  have h1 := wf_message h i (fun m => { m with toSend := false }) fun _ => ⟨⟨rfl, rfl⟩, rfl, rfl, rfl⟩
  exact { h1 with
    outQueue := sorted_insert h.outQueue _
    outNym := fun r hr => by
      rcases mem_insert.mp hr with hr | rfl
      · exact h.outNym r hr
      · exact ⟨n, hn⟩
    outMessage := fun r hr => by
      rcases mem_insert.mp hr with hr | rfl
      · exact h1.outMessage r hr
      · obtain ⟨b, hb, _⟩ := to_updateId i (fun m : Message => { m with toSend := false }) (byId_some hm)
        exact ⟨b, hb⟩ }

theorem wf_out_done (h : WF I db) (i j : Nat) (f : Message → Message) (hf : ∀ n, ((f n).self = n.self ∧ (f n).peer = n.peer) ∧ (f n).outgoing = n.outgoing ∧ (f n).to = n.to ∧ (f n).from_ = n.from_) :
    WF I { db with messages := updateId j f db.messages, outQueue := deleteId i db.outQueue } :=
  wf_out (wf_message h j f hf) _ (sorted_deleteId h.outQueue _) fun r hr => ⟨r, (mem_deleteId.mp hr).1, rfl, rfl⟩

theorem wf_addInQueue {my c m : Bytes} {d : Int} (h : WF I db) (he : db.addInQueue I my c d m = .ok db') : WF I db' := by
  unfold Db.addInQueue at he
  split at he
  · cases he
  rename_i u v hp
  obtain ⟨r1, r2⟩ := pair_refs hp
  injection he with he; subst he
  exact { h with
    inQueue := sorted_insert h.inQueue _
    inNym := fun r hr => by
      rcases mem_insert.mp hr with hr | rfl
      · exact h.inNym r hr
      · exact r1
    inContact := fun r hr => by
      rcases mem_insert.mp hr with hr | rfl
      · exact h.inContact r hr
      · exact r2 }

theorem wf_removeInQueue {i : Nat} {p f : Bytes} {d : Bool} (h : WF I db) (he : db.removeInQueue I i p f d = .ok db') : WF I db' := by
  unfold Db.removeInQueue at he
  split at he
  · cases he
  split at he
  · cases he
  rename_i e hi
  split at he
  · cases he
  rename_i c hc
  obtain ⟨k, hk, ek, ek'⟩ := contactUID_some hc
  split at he
  · cases he
  rename_i n hn
  injection he with he; subst he
  have h1 := wf_in_deleteId h i
  cases d with
  | true => exact h1
  | false =>
    exact { h1 with
      messages := sorted_insert h.messages _
      messageNym := fun r hr => by
        rcases mem_insert.mp hr with hr | rfl
        · exact h.messageNym r hr
        · exact h.inNym _ (byId_some hi)
      messagePeer := fun r hr => by
        rcases mem_insert.mp hr with hr | rfl
        · exact h.messagePeer r hr
        · exact ⟨k, hk, ek⟩
      messageName := fun r hr => by
        rcases mem_insert.mp hr with hr | rfl
        · exact h.messageName r hr
        · exact ⟨k, hk, ek'⟩
      outMessage := fun r hr => by
        obtain ⟨m, hm⟩ := h.outMessage r hr
        exact ⟨m, mem_insert.mpr (.inl hm)⟩ }

theorem wf_addCache {my c m : Bytes} (h : WF I db) (he : db.addCache I my c m = .ok db') : WF I db' := by
  unfold Db.addCache at he
  split at he
  · cases he
  split at he
  · cases he
  rename_i u v hp
  obtain ⟨r1, r2⟩ := pair_refs hp
  injection he with he; subst he
  exact { h with
    cache := sorted_insert h.cache _
    cacheNym := fun r hr => by
      rcases mem_insert.mp hr with hr | rfl
      · exact h.cacheNym r hr
      · exact r1
    cacheContact := fun r hr => by
      rcases mem_insert.mp hr with hr | rfl
      · exact h.cacheContact r hr
      · exact r2 }

theorem wf_removeCache {my c m : Bytes} (h : WF I db) (he : db.removeCache I my c m = .ok db') : WF I db' := by
  unfold Db.removeCache at he
  split at he
  · cases he
  split at he
  · cases he
  split at he
  · cases he
  injection he with he; subst he
  exact { h with
    cache := sorted_filter h.cache _
    cacheNym := fun r hr => h.cacheNym r (List.mem_filter.mp hr).1
    cacheContact := fun r hr => h.cacheContact r (List.mem_filter.mp hr).1 }

theorem wf_apply (h : WF I db) (op : Op) (he : db.apply I op = .ok db') : WF I db' := by
  cases op with
  | addValue k v => exact wf_addValue h he
  | addNym m u f => exact wf_addNym h he
  | delNym m =>
    obtain ⟨u, n, _, _, rfl⟩ := delNym_ok he
    exact wf_cascade h u
  | setUpkeepAll m t =>
    simp only [Db.apply, Db.setUpkeepAll] at he
    split at he
    · cases he
    injection he with he; subst he
    exact wf_upkeep h _ _ fun _ => ⟨rfl, rfl⟩
  | setUpkeepAccounts m t =>
    simp only [Db.apply, Db.setUpkeepAccounts] at he
    split at he
    · cases he
    injection he with he; subst he
    exact wf_upkeep h _ _ fun _ => ⟨rfl, rfl⟩
  | addContact my m u f ty => exact wf_addContact h he
  | removeContact my c => exact wf_removeContact h he
  | addAccount my c k sv se mi ma => exact wf_addAccount h he
  | setAccountTime my c t =>
    simp only [Db.apply, Db.setAccountTime] at he
    split at he
    · cases he
    injection he with he; subst he
    exact wf_account h _ _ fun _ => ⟨rfl, rfl⟩
  | setAccountLastMsg my c t =>
    simp only [Db.apply, Db.setAccountLastMsg] at he
    split at he
    · cases he
    injection he with he; subst he
    exact wf_account h _ _ fun _ => ⟨rfl, rfl⟩
  | addMessage s p d b m g mi ma => exact wf_addMessage h he
  | readMessage n =>
    injection he with he; subst he
    exact wf_message h _ _ fun _ => ⟨⟨rfl, rfl⟩, rfl, rfl, rfl⟩
  | delMessage my n => exact wf_delMessage h he
  | addOutQueue my i e a mi ma => exact wf_addOutQueue h he
  | setOutQueue i m =>
    injection he with he; subst he
    exact wf_out_updateId h _ _ fun _ => ⟨rfl, rfl⟩
  | removeOutQueue i d =>
    simp only [Db.apply, Db.removeOutQueue] at he
    split at he
    · cases he
    injection he with he; subst he
    exact wf_out_done h _ _ _ fun _ => ⟨⟨rfl, rfl⟩, rfl, rfl, rfl⟩
  | retractOutQueue i =>
    simp only [Db.apply, Db.retractOutQueue] at he
    split at he
    · cases he
    injection he with he; subst he
    exact wf_out_done h _ _ _ fun _ => ⟨⟨rfl, rfl⟩, rfl, rfl, rfl⟩
  | setResend i =>
    injection he with he; subst he
    exact wf_out_updateId h _ _ fun _ => ⟨rfl, rfl⟩
  | clearResend my =>
    simp only [Db.apply, Db.clearResend] at he
    split at he
    · cases he
    split at he
    · cases he
    injection he with he; subst he
    refine wf_out h _ (sorted_update h.outQueue _ _) fun r hr => ?_
    obtain ⟨a, ha, e | ⟨_, e⟩⟩ := of_update hr
    · exact ⟨_, ha, by rw [e], by rw [e]⟩
    · exact ⟨_, ha, by rw [e], by rw [e]⟩
  | addInQueue my c d m => exact wf_addInQueue h he
  | setInQueue i m =>
    injection he with he; subst he
    refine wf_in h _ (sorted_updateId h.inQueue _ _) fun r hr => ?_
    obtain ⟨a, ha, e | ⟨_, e⟩⟩ := of_updateId hr
    · exact ⟨_, ha, by rw [e], by rw [e]⟩
    · exact ⟨_, ha, by rw [e], by rw [e]⟩
  | removeInQueue i p f d => exact wf_removeInQueue h he
  | delInQueue i =>
    injection he with he; subst he
    exact wf_in_deleteId h i
  | addCache my c m => exact wf_addCache h he
  | removeCache my c m => exact wf_removeCache h he

theorem wf_step (h : WF I db) (op : Op) : WF I (db.step I op) := by
  unfold Db.step
  cases he : db.apply I op with
  | ok d => exact wf_apply h op he
  | error e => exact h

theorem wf_run (h : WF I db) (ops : List Op) : WF I (db.run I ops) := by
  unfold Db.run
  induction ops generalizing db with
  | nil => exact h
  | cons op ops ih => exact ih (wf_step h op)

/-- Every database that a history produces satisfies the invariant. -/
theorem wf_reach (ops : List Op) : WF I (Db.new.run I ops) := wf_run wf_new ops

end Verif.Msgdb
