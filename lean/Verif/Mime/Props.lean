/-
C15 (chunking), C64 (MIME round trip) and C65 (parsing does not panic).
-/
import Verif.Mime.Model

namespace Verif.Mime

/-! ### C15 chunking -/

theorem encodeChunk_ok (h : Header) (msg : Bytes) (size num : UInt64) (i : Nat)
    (hmsg : msg.length < 2 ^ 63) (hi : i * size.toNat < msg.length) (hnum : i < 2 ^ 63) :
    encodeChunk h msg size num (UInt64.ofNat i) =
      .ok (mailHeader h [] [.part ⟨[], base64Name, [],
        some ⟨some (UInt64.ofNat i + 1), some num, h.messageID⟩,
        some ((msg.drop (i * size.toNat)).take size.toNat)⟩]) := by
  have hs := size.toNat_lt
  have hil : (UInt64.ofNat i).toNat = i := by
    simp only [UInt64.toNat_ofNat']; omega
  have hstart : (UInt64.ofNat i * size).toNat = i * size.toNat := by
    rw [UInt64.toNat_mul, hil]; apply Nat.mod_eq_of_lt; omega
  have hlen : (UInt64.ofNat msg.length).toNat = msg.length := by
    simp only [UInt64.toNat_ofNat']; omega
  have h1 : (UInt64.ofNat i + 1).toNat = i + 1 := by
    rw [UInt64.toNat_add, hil, show (1 : UInt64).toNat = 1 from rfl]; omega
  have hbound : (i + 1) * size.toNat < 2 ^ 64 := by
    rcases Nat.eq_zero_or_pos i with rfl | hpos
    · omega
    · have : size.toNat ≤ i * size.toNat := Nat.le_mul_of_pos_left _ hpos
      rw [Nat.add_mul]; omega
  have hstop : ((UInt64.ofNat i + 1) * size).toNat = (i + 1) * size.toNat := by
    rw [UInt64.toNat_mul, h1]; exact Nat.mod_eq_of_lt hbound
  have hexp : (i + 1) * size.toNat = i * size.toNat + size.toNat := by rw [Nat.add_mul]; omega
  unfold encodeChunk
  simp only
  by_cases hgt : ((UInt64.ofNat i + 1) * size) > UInt64.ofNat msg.length
  · have hgt' : msg.length < (i + 1) * size.toNat := by
      have := UInt64.lt_iff_toNat_lt.mp hgt
      rw [hstop, hlen] at this
      exact this
    simp only [if_pos hgt, hlen, hstart]
    rw [if_pos ⟨by omega, by omega⟩]
    congr 7
    rw [List.take_of_length_le (Nat.le_refl _), List.take_of_length_le]
    rw [List.length_drop]; omega
  · have hle' : (i + 1) * size.toNat ≤ msg.length := by
      have := UInt64.not_lt.mp hgt
      have := UInt64.le_iff_toNat_le.mp this
      rw [hstop, hlen] at this
      exact this
    simp only [if_neg hgt, hstop, hstart]
    rw [if_pos ⟨by omega, by omega⟩]
    congr 7
    rw [List.drop_take]
    congr 1
    omega

theorem encodeLoop_ok {h : Header} {msg : Bytes} {size num : UInt64} {is : List UInt64}
    {f : UInt64 → Mail} (hf : ∀ i ∈ is, encodeChunk h msg size num i = .ok (f i)) :
    encodeLoop h msg size num is = .ok (is.map f) := by
  induction is with
  | nil => rfl
  | cons i is ih =>
    unfold encodeLoop
    rw [hf i (by simp), ih (fun j hj => hf j (List.mem_cons_of_mem _ hj))]
    rfl

theorem flatten_slices (msg : Bytes) (size n : Nat) (hn : msg.length ≤ n * size) :
    ((List.range n).map fun i => (msg.drop (i * size)).take size).flatten = msg := by
  induction n generalizing msg with
  | zero =>
    have : msg = [] := List.length_eq_zero_iff.mp (by omega)
    simp [this]
  | succ n ih =>
    rw [List.range_succ_eq_map, List.map_cons, List.map_map, List.flatten_cons]
    have hrec := ih (msg.drop size) (by rw [List.length_drop, Nat.sub_le_iff_le_add]; rw [Nat.add_mul] at hn; omega)
    have : ((fun i => (msg.drop (i * size)).take size) ∘ Nat.succ) =
        fun i => ((msg.drop size).drop (i * size)).take size := by
      funext i
      simp only [Function.comp_apply, List.drop_drop]
      congr 2
      rw [Nat.succ_mul]; omega
    rw [this, hrec]
    simp [List.take_append_drop]

/-- Number of chunks: the length divided by the size, rounded up. -/
def numChunks (len size : Nat) : Nat := (len + size - 1) / size

/-- The i-th chunk. -/
def chunkAt (h : Header) (msg : Bytes) (size num : UInt64) (i : Nat) : Mail :=
  mailHeader h [] [.part ⟨[], base64Name, [],
    some ⟨some (UInt64.ofNat i + 1), some num, h.messageID⟩,
    some ((msg.drop (i * size.toNat)).take size.toNat)⟩]

theorem size_pos {size : UInt64} (hs : size ≠ 0) : 0 < size.toNat := by
  rcases Nat.eq_zero_or_pos size.toNat with h0 | h0
  · exact absurd (UInt64.toNat_inj.mp (show size.toNat = (0 : UInt64).toNat from h0)) hs
  · exact h0

theorem numChunks_inside {len size i : Nat} (hs0 : 0 < size) (hi : i < numChunks len size) :
    i * size < len := by
  unfold numChunks at hi
  have h1 : (i + 1) * size ≤ len + size - 1 := (Nat.le_div_iff_mul_le hs0).mp hi
  rw [Nat.add_mul] at h1
  omega

theorem encodeChunks_eq (h : Header) (msg : Bytes) (size : UInt64) (hs : size ≠ 0)
    (hmsg : msg.length < 2 ^ 63) :
    ∃ num : UInt64, num.toNat = numChunks msg.length size.toNat ∧ num.toNat ≤ 2 ^ 63 ∧
      encodeChunks h msg size = .ok ((List.range num.toNat).map (chunkAt h msg size num)) := by
  have hsl := size.toNat_lt
  have hs0 := size_pos hs
  have hlen : (UInt64.ofNat msg.length).toNat = msg.length := by
    simp only [UInt64.toNat_ofNat']; omega
  obtain ⟨num, hdef⟩ : ∃ num : UInt64, num = if UInt64.ofNat msg.length % size > 0 then
    UInt64.ofNat msg.length / size + 1 else UInt64.ofNat msg.length / size := ⟨_, rfl⟩
  have hdm := Nat.div_add_mod msg.length size.toNat
  have hml := Nat.mod_lt msg.length hs0
  have hdl : msg.length / size.toNat ≤ msg.length := Nat.div_le_self _ _
  have hnum : num.toNat = numChunks msg.length size.toNat := by
    have hmod : (UInt64.ofNat msg.length % size).toNat = msg.length % size.toNat := by
      rw [UInt64.toNat_mod, hlen]
    have hdiv : (UInt64.ofNat msg.length / size).toNat = msg.length / size.toNat := by
      rw [UInt64.toNat_div, hlen]
    rw [hdef]
    unfold numChunks
    split
    · rename_i hp
      have hp := UInt64.lt_iff_toNat_lt.mp hp
      rw [hmod] at hp
      have hp : 0 < msg.length % size.toNat := hp
      rw [UInt64.toNat_add, hdiv, show (1 : UInt64).toNat = 1 from rfl,
        Nat.mod_eq_of_lt (by omega)]
      symm
      rw [Nat.div_eq_iff hs0]
      have e : (msg.length / size.toNat + 1) * size.toNat =
        size.toNat * (msg.length / size.toNat) + size.toNat := by
        rw [Nat.add_mul, Nat.one_mul, Nat.mul_comm]
      rw [e]
      generalize size.toNat * (msg.length / size.toNat) = q at *
      omega
    · rename_i hp
      have hp := UInt64.le_iff_toNat_le.mp (UInt64.not_lt.mp hp)
      rw [hmod] at hp
      have hp : msg.length % size.toNat ≤ 0 := hp
      rw [hdiv]
      symm
      rw [Nat.div_eq_iff hs0, Nat.mul_comm]
      generalize size.toNat * (msg.length / size.toNat) = q at *
      omega
  have hinside : ∀ i, i < num.toNat → i * size.toNat < msg.length := by
    intro i hi; rw [hnum] at hi; exact numChunks_inside hs0 hi
  have hnlt : num.toNat < 2 ^ 63 + 1 := by
    rcases Nat.lt_or_ge num.toNat (2 ^ 63 + 1) with h' | h'
    · exact h'
    · have := hinside (2 ^ 63) (by omega)
      have : 2 ^ 63 ≤ 2 ^ 63 * size.toNat := Nat.le_mul_of_pos_right _ hs0
      omega
  refine ⟨num, hnum, by omega, ?_⟩
  unfold encodeChunks
  rw [if_neg hs]
  simp only [← hdef]
  rw [encodeLoop_ok (f := fun i => chunkAt h msg size num i.toNat) ?_]
  · rw [List.map_map]
    congr 1
    apply List.map_congr_left
    intro i hi
    have : i < num.toNat := List.mem_range.mp hi
    simp only [Function.comp_apply, UInt64.toNat_ofNat']
    rw [Nat.mod_eq_of_lt (by omega)]
  · intro u hu
    obtain ⟨i, hi, rfl⟩ := List.mem_map.mp hu
    have hi : i < num.toNat := List.mem_range.mp hi
    have e : (UInt64.ofNat i).toNat = i := by
      simp only [UInt64.toNat_ofNat']; omega
    rw [e]
    exact encodeChunk_ok h msg size num i hmsg (hinside i hi) (by omega)

/-- For every message, header and positive size: splitting succeeds; there are
`⌈length/size⌉` chunks; decoding the i-th chunk returns the header, the numbers
`i+1` and the number of chunks, and a part of at most `size` bytes; and the
parts in order are the message. -/
theorem C15_chunks_lossless_partial (h : Header) (msg : Bytes) (size : UInt64) (hs : size ≠ 0)
    (hmsg : msg.length < 2 ^ 63) :
    ∃ (chunks : List Mail) (parts : List Bytes), encodeChunks h msg size = .ok chunks ∧
      chunks.length = numChunks msg.length size.toNat ∧
      parts.length = chunks.length ∧
      parts.flatten = msg ∧
      (∀ p ∈ parts, p.length ≤ size.toNat ∧ p ≠ []) ∧
      ∀ (i : Nat) c, chunks[i]? = some c → ∃ p, parts[i]? = some p ∧
        decodeChunk c = .ok (h, p, UInt64.ofNat (i + 1), UInt64.ofNat chunks.length) := by
  have hs0 := size_pos hs
  obtain ⟨num, hnum, hnlt, henc⟩ := encodeChunks_eq h msg size hs hmsg
  have hcover : msg.length ≤ num.toNat * size.toNat := by
    rw [hnum]; unfold numChunks
    have := Nat.div_add_mod (msg.length + size.toNat - 1) size.toNat
    have := Nat.mod_lt (msg.length + size.toNat - 1) hs0
    rw [Nat.mul_comm]
    generalize size.toNat * ((msg.length + size.toNat - 1) / size.toNat) = q at *
    omega
  have hinside : ∀ i, i < num.toNat → i * size.toNat < msg.length := by
    intro i hi; rw [hnum] at hi; exact numChunks_inside hs0 hi
  refine ⟨(List.range num.toNat).map (chunkAt h msg size num),
    (List.range num.toNat).map fun i => (msg.drop (i * size.toNat)).take size.toNat,
    henc, by simp [hnum], by simp, flatten_slices msg size.toNat num.toNat hcover, ?_, ?_⟩
  · intro p hp
    obtain ⟨i, hi, rfl⟩ := List.mem_map.mp hp
    have hi := hinside i (List.mem_range.mp hi)
    refine ⟨by simp [List.length_take]; omega, ?_⟩
    apply List.ne_nil_of_length_pos
    simp only [List.length_take, List.length_drop]
    omega
  · intro i c hc
    rw [List.getElem?_map] at hc
    have hi : i < num.toNat := by
      rcases Nat.lt_or_ge i num.toNat with h' | h'
      · exact h'
      · rw [List.getElem?_eq_none (by simpa using h')] at hc; cases hc
    rw [List.getElem?_range hi] at hc
    simp only [Option.map_some, Option.some.injEq] at hc
    subst hc
    refine ⟨(msg.drop (i * size.toNat)).take size.toNat,
      by rw [List.getElem?_map, List.getElem?_range hi]; rfl, ?_⟩
    have e1 : UInt64.ofNat i + 1 = UInt64.ofNat (i + 1) := by
      apply UInt64.toNat_inj.mp
      simp only [UInt64.toNat_add, UInt64.toNat_ofNat', show (1 : UInt64).toNat = 1 from rfl]
      omega
    have e2 : UInt64.ofNat ((List.range num.toNat).map (chunkAt h msg size num)).length = num := by
      simp
    rw [e2, ← e1]
    obtain ⟨a, b, cc, d, e⟩ := h
    cases cc <;> simp [decodeChunk, chunkAt, mailHeader, readCc]

/-- The second half of the property does not hold: the size bounds the part
inside a chunk, not the chunk. In every rendering of chunks as text in which
the text is longer than the part it carries, a message of at least `size` bytes
gives a chunk that is longer than `size`. -/
theorem C15_chunk_text_exceeds_size (render : Mail → Bytes) (h : Header) (msg : Bytes)
    (size : UInt64) (hs : size ≠ 0) (hl : size.toNat ≤ msg.length) (hmsg : msg.length < 2 ^ 63)
    (henv : ∀ m p rest body, m.parts = .part p :: rest → p.body = some body →
      body.length < (render m).length) :
    ∃ chunks c, encodeChunks h msg size = .ok chunks ∧ c ∈ chunks ∧
      size.toNat < (render c).length := by
  have hs0 := size_pos hs
  obtain ⟨num, hnum, hnlt, henc⟩ := encodeChunks_eq h msg size hs hmsg
  have hpos : 0 < num.toNat := by
    rw [hnum]; unfold numChunks
    show 1 ≤ _
    rw [Nat.le_div_iff_mul_le hs0]; omega
  refine ⟨_, chunkAt h msg size num 0, henc, List.mem_map.mpr ⟨0, List.mem_range.mpr hpos, rfl⟩, ?_⟩
  have := henv (chunkAt h msg size num 0) _ [] _ rfl rfl
  rw [List.length_take, Nat.zero_mul, List.drop_zero, Nat.min_eq_left hl] at this
  exact this

/-- C15, the reading side: a chunk is only accepted if its first part carries
the id of the message it is in; the numbers and the content returned are the
ones written in that part, and the header is the one of the message. -/
theorem C15_decode_sound (m : Mail) (h : Header) (p : Bytes) (i n : UInt64)
    (hd : decodeChunk m = .ok (h, p, i, n)) :
    m.mixed = true ∧ h.src = m.src ∧ h.dst = m.dst ∧ h.messageID = m.messageID ∧
      h.inReplyTo = m.inReplyTo ∧
      ∃ pt c rest, m.parts = .part pt :: rest ∧ pt.chunk = some c ∧
        c.chunkid = m.messageID ∧ c.piece = some i ∧ c.count = some n ∧ pt.body = some p := by
  unfold decodeChunk at hd
  split at hd <;> try contradiction
  split at hd <;> try contradiction
  rename_i hm
  split at hd <;> try contradiction
  rename_i pt rest hp
  split at hd <;> try contradiction
  rename_i c hc
  split at hd <;> try contradiction
  rename_i pc hpc
  split at hd <;> try contradiction
  rename_i ct hct
  split at hd <;> try contradiction
  rename_i hid
  split at hd <;> try contradiction
  rename_i body hb
  simp only [Res.ok.injEq, Prod.mk.injEq] at hd
  obtain ⟨rfl, rfl, rfl, rfl⟩ := hd
  exact ⟨by simpa using hm, rfl, rfl, rfl, rfl, pt, c, rest, hp, hc,
    Decidable.not_not.mp hid, hpc, hct, hb⟩

/-- Seven bytes in chunks of three. -/
example : (match encodeChunks ⟨[1], [2], none, [3], []⟩ [1, 2, 3, 4, 5, 6, 7] 3 with
    | .ok cs => cs.map (fun c => match decodeChunk c with
        | .ok (_, p, i, n) => (p, i, n)
        | _ => ([], 0, 0))
    | _ => []) = [([1, 2, 3], 1, 3), ([4, 5, 6], 2, 3), ([7], 3, 3)] := by
  decide +kernel

/-! ### C64 MIME messages -/

/-- The attachment as the recipient sees it: base name, resolved type. -/
def received (F : Files) (a : Attachment) : Attachment :=
  { a with filename := F.base a.filename, contentType := (attachmentPart F a).ctype }

theorem ctype_ne_nil (F : Files) (a : Attachment) : (attachmentPart F a).ctype ≠ [] := by
  unfold attachmentPart
  dsimp only
  split
  · assumption
  · split
    · assumption
    · decide

theorem readAttachments_ok (F : Files) (as : List Attachment) :
    readAttachments (as.map fun a => .part (attachmentPart F a)) = .ok (as.map (received F)) := by
  induction as with
  | nil => rfl
  | cons a as ih =>
    rw [List.map_cons]
    unfold readAttachments
    rw [if_neg (ctype_ne_nil F a)]
    have hd : readDisp (attachmentPart F a).disp ([], false) = .ok (F.base a.filename, a.inline) := by
      unfold attachmentPart
      cases hin : a.inline <;> simp [readDisp]
    rw [hd]
    have hb : (attachmentPart F a).body = some (Base64.encode a.content) := rfl
    simp only [hb, Base64.decode_encode, ih]
    rfl

/-- A message written by `New` is parsed by `Parse` to the same header, the
message's first line as subject, the same message text and the same
attachments (with base file names and resolved content types), if sender,
recipient, message ID and subject are non-empty. Missing for the full claim:
see `C64_empty_subject_unreadable`. -/
theorem C64_mime_round_trip_partial (F : Files) (h : Header) (msg : Bytes) (as : List Attachment)
    (h1 : h.src ≠ []) (h2 : h.dst ≠ []) (h3 : h.messageID ≠ []) (h4 : (splitMessage msg).1 ≠ []) :
    parse (new F h msg as) = .ok (h, (splitMessage msg).1, msg, as.map (received F)) := by
  have hcc : readCc (new F h msg as).cc = .ok h.cc := by
    cases hc : h.cc <;> simp [new, mailHeader, readCc, hc]
  have hsub : (new F h msg as).subject = (splitMessage msg).1 := rfl
  have hp : (new F h msg as).parts =
    .part ⟨textPlain, base64Name, [], none, some (Base64.encode msg)⟩ ::
      as.map fun a => .part (attachmentPart F a) := rfl
  unfold parse
  rw [if_neg (show (new F h msg as).src ≠ [] from h1),
    if_neg (show (new F h msg as).dst ≠ [] from h2), hcc]
  dsimp only
  rw [hsub, if_neg h4, if_neg (show (new F h msg as).messageID ≠ [] from h3),
    if_neg (show ¬ (new F h msg as).mimeVersion ≠ version10 from fun h => h rfl),
    if_neg (show ¬ (new F h msg as).mixed = false from by simp [new, mailHeader]), hp]
  simp only [ne_eq, not_true_eq_false, if_false, Base64.decode_encode, readAttachments_ok]
  rfl

/-- A message whose first line is empty (apart from carriage returns) is
written without complaint, but no recipient can parse it. -/
theorem C64_empty_subject_unreadable (F : Files) (h : Header) (msg : Bytes) (as : List Attachment)
    (hs : (splitMessage msg).1 = []) (h1 : h.src ≠ []) (h2 : h.dst ≠ []) :
    parse (new F h msg as) = .err .noSubject := by
  have hcc : readCc (new F h msg as).cc = .ok h.cc := by
    cases hc : h.cc <;> simp [new, mailHeader, readCc, hc]
  unfold parse
  rw [if_neg (show (new F h msg as).src ≠ [] from h1),
    if_neg (show (new F h msg as).dst ≠ [] from h2), hcc]
  dsimp only
  rw [if_pos (show (new F h msg as).subject = [] from hs)]

/-- Splitting a message at its first newline and joining it again gives the
message back, if the subject line does not end in a carriage return. -/
theorem C64_split_message (msg : Bytes) (hnl : 10 ∈ msg)
    (hcr : (msg.takeWhile (· != 10)).getLast? ≠ some 13) :
    (splitMessage msg).1 ++ 10 :: (splitMessage msg).2 = msg ∧ 10 ∉ (splitMessage msg).1 := by
  have htrim : trimRightCR (msg.takeWhile (· != 10)) = msg.takeWhile (· != 10) := by
    unfold trimRightCR
    rw [List.getLast?_eq_head?_reverse] at hcr
    cases hr : (msg.takeWhile (· != 10)).reverse with
    | nil =>
      have := congrArg List.reverse hr
      simpa using this.symm
    | cons c cs =>
      rw [hr] at hcr
      have hc : c ≠ 13 := by simpa using hcr
      rw [List.dropWhile_cons_of_neg (by simpa using hc), ← hr, List.reverse_reverse]
  have hsplit : (msg.takeWhile (· != 10)) ++ 10 :: (msg.dropWhile (· != 10)).drop 1 = msg := by
    have hne : msg.dropWhile (· != 10) ≠ [] := by
      intro h
      have := List.takeWhile_append_dropWhile (p := (· != 10)) (l := msg)
      rw [h, List.append_nil] at this
      rw [← this] at hnl
      have := List.all_eq_true.mp (List.all_takeWhile (p := (· != (10 : UInt8))) (l := msg)) _ hnl
      simp at this
    cases hd : msg.dropWhile (· != 10) with
    | nil => exact absurd hd hne
    | cons c cs =>
      have hc := List.head_dropWhile_not (· != (10 : UInt8)) hne
      have : c = 10 := by
        simp only [hd, List.head_cons] at hc
        simpa using hc
      subst this
      have := List.takeWhile_append_dropWhile (p := (· != 10)) (l := msg)
      rw [hd] at this
      simpa using this
  constructor
  · show trimRightCR _ ++ _ = _
    rw [htrim]; exact hsplit
  · show 10 ∉ trimRightCR _
    rw [htrim]
    intro h
    have := List.all_eq_true.mp (List.all_takeWhile (p := (· != (10 : UInt8))) (l := msg)) _ h
    simp at this

/-- "Hi\nthere" with one attachment. -/
example : parse (new ⟨id, fun _ => []⟩ ⟨[97], [98], none, [99], []⟩ [72, 105, 10, 33]
    [⟨[102], [1, 2, 3], [], true⟩]) =
    .ok (⟨[97], [98], none, [99], []⟩, [72, 105], [72, 105, 10, 33],
      [⟨[102], [1, 2, 3], octetStream, true⟩]) := by decide +kernel

/-! ### C65 Parse does not panic -/

theorem readDisp_not_panic (ds : List Disp) (r : Bytes × Bool) : readDisp ds r ≠ .panic := by
  induction ds generalizing r with
  | nil => simp [readDisp]
  | cons d ds ih => obtain ⟨f, i⟩ := r; cases d <;> simp [readDisp, ih]

theorem readAttachments_not_panic (evs : List Ev) (h : Ev.bad ∉ evs) :
    readAttachments evs ≠ .panic := by
  induction evs with
  | nil => simp [readAttachments]
  | cons e evs ih =>
    simp only [List.mem_cons, not_or] at h
    cases e with
    | bad => exact absurd rfl h.1
    | part p =>
      unfold readAttachments
      split
      · simp
      · cases hd : readDisp p.disp ([], false) with
        | panic => exact absurd hd (readDisp_not_panic _ _)
        | err e => simp
        | ok q =>
          obtain ⟨f, i⟩ := q
          dsimp only
          split
          · simp
          · split
            · simp
            · have := ih h.2
              cases hr : readAttachments evs with
              | panic => exact absurd hr this
              | err e => simp
              | ok as => simp

/-- Parsing a mail panics only if the multipart stream breaks after the first
part. Missing for the full claim: `C65_parse_can_panic`. -/
theorem C65_parse_no_panic_partial (m : Mail) (h : Ev.bad ∉ m.parts.drop 1) :
    parse m ≠ .panic := by
  unfold parse
  split
  · simp
  · split
    · simp
    · cases hc : readCc m.cc with
      | panic => unfold readCc at hc; split at hc <;> cases hc
      | err e => simp
      | ok cc =>
        dsimp only
        split
        · simp
        · split
          · simp
          · split
            · simp
            · split
              · simp
              · cases hp : m.parts with
                | nil => simp
                | cons e evs =>
                  cases e with
                  | bad => simp
                  | part p =>
                    dsimp only
                    split
                    · simp
                    · split
                      · simp
                      · split
                        · simp
                        · split
                          · simp
                          · rw [hp] at h
                            have := readAttachments_not_panic evs (by simpa using h)
                            cases hr : readAttachments evs with
                            | panic => exact absurd hr this
                            | err e => simp
                            | ok as => simp

/-- A sender can make `Parse` panic: a mail whose multipart body is cut off
after a valid first part. Decoding chunks, in contrast, never panics. -/
theorem C65_parse_can_panic :
    (∃ m : Mail, parse m = .panic) ∧ ∀ m : Mail, decodeChunk m ≠ .panic := by
  refine ⟨⟨⟨[97], [98], none, [115], [99], [], version10, true,
    [.part ⟨textPlain, base64Name, [], none, some []⟩, .bad]⟩, by decide +kernel⟩, ?_⟩
  intro m
  unfold decodeChunk
  cases hc : readCc m.cc with
  | panic => unfold readCc at hc; split at hc <;> cases hc
  | err e => simp
  | ok cc =>
    dsimp only
    split
    · simp
    · split
      · simp
      · simp
      · split
        · simp
        · split
          · simp
          · split
            · simp
            · split
              · simp
              · split <;> simp

/-- The hypothesis of the partial theorem holds for a written message. -/
example : Ev.bad ∉ (new ⟨id, fun _ => []⟩ ⟨[97], [98], none, [99], []⟩ [72, 10]
    [⟨[102], [1], [], false⟩]).parts.drop 1 := by decide

end Verif.Mime
