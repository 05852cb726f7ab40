/-
msg/mime/mime.go: MIME messages and chunks.

The text layer (net/mail, mime, mime/multipart of the Go library) is
represented by its result: a mail is a `Mail` record of header fields and a
stream of multipart parts, as `mail.ReadMessage` and `multipart.Reader.NextPart`
deliver them. Writing a mail and reading it back is the identity on such
records; what the repository's own code computes from them is modelled in full.
-/
import Verif.Go
import Verif.Util.Base64

namespace Verif.Mime

/-- `Header` (mime.go:42-48); `cc = none` is the nil slice. -/
structure Header where
  src : Bytes
  dst : Bytes
  cc : Option (List Bytes)
  messageID : Bytes
  inReplyTo : Bytes
  deriving DecidableEq, Repr

/-- `Attachment` (mime.go:34-39) with the content its reader delivers. -/
structure Attachment where
  filename : Bytes
  content : Bytes
  contentType : Bytes
  inline : Bool
  deriving DecidableEq, Repr

/-- A parsed `Content-Disposition` value (mime.ParseMediaType). -/
inductive Disp where
  | attachment (filename : Bytes)
  | inline
  | other
  | malformed
  deriving DecidableEq, Repr

/-- Parameters of a chunk's `Content-Type`; `none` if not a decimal number. -/
structure ChunkParams where
  piece : Option UInt64
  count : Option UInt64
  chunkid : Bytes
  deriving DecidableEq, Repr

/-- One multipart part: the header fields that are looked at and the body
(`none` if reading it fails). -/
structure Part where
  ctype : Bytes
  cte : Bytes
  disp : List Disp
  chunk : Option ChunkParams
  body : Option Bytes
  deriving DecidableEq, Repr

/-- Result of one `NextPart` call before the end of the stream. -/
inductive Ev where
  | part (p : Part)
  | bad
  deriving DecidableEq, Repr

/-- A mail as the library delivers it. Absent fields are empty, as
`Header.Get` reports them. -/
structure Mail where
  src : Bytes
  dst : Bytes
  cc : Option (Option (List Bytes))
  subject : Bytes
  messageID : Bytes
  inReplyTo : Bytes
  mimeVersion : Bytes
  mixed : Bool
  parts : List Ev
  deriving DecidableEq, Repr

/-- "1.0" -/
def version10 : Bytes := [49, 46, 48]
/-- "text/plain" -/
def textPlain : Bytes := [116, 101, 120, 116, 47, 112, 108, 97, 105, 110]
/-- "base64" -/
def base64Name : Bytes := [98, 97, 115, 101, 54, 52]
/-- "application/octet-stream" -/
def octetStream : Bytes :=
  [97, 112, 112, 108, 105, 99, 97, 116, 105, 111, 110, 47, 111, 99, 116, 101, 116, 45, 115, 116,
   114, 101, 97, 109]

/-- Errors of the package. -/
inductive Err where
  | mail
  | noFrom
  | noTo
  | cc
  | noSubject
  | noMessageID
  | version
  | mediaType
  | part
  | contentType
  | transferEncoding
  | read
  | base64
  | disposition
  | piece
  | count
  | chunkID
  deriving DecidableEq, Repr

/-- `strings.TrimRight(s, "\r")`. -/
def trimRightCR (s : Bytes) : Bytes := (s.reverse.dropWhile (· == 13)).reverse

/-- `SplitMessage` (mime.go:128-136). -/
def splitMessage (msg : Bytes) : Bytes × Bytes :=
  let subject := msg.takeWhile (· != 10)
  (trimRightCR subject, (msg.dropWhile (· != 10)).drop 1)

/-- `mailHeader` (mime.go:50-72). A nil `Cc` writes no field. -/
def mailHeader (h : Header) (subject : Bytes) (parts : List Ev) : Mail where
  src := h.src
  dst := h.dst
  cc := h.cc.map some
  subject := subject
  messageID := h.messageID
  inReplyTo := h.inReplyTo
  mimeVersion := version10
  mixed := true
  parts := parts

/-- Functions of the Go library on file names: `filepath.Base` and
`mime.TypeByExtension(filepath.Ext(·))`. -/
structure Files where
  base : Bytes → Bytes
  typeOf : Bytes → Bytes

/-- The part written for an attachment (mime.go:94-121). -/
def attachmentPart (F : Files) (a : Attachment) : Part where
  ctype :=
    if a.contentType ≠ [] then a.contentType
    else if F.typeOf (F.base a.filename) ≠ [] then F.typeOf (F.base a.filename)
    else octetStream
  cte := base64Name
  disp := .attachment (F.base a.filename) :: if a.inline then [.inline] else []
  chunk := none
  body := some (Base64.encode a.content)

/-- `multipartMIME` (mime.go:74-124). -/
def multipartMIME (F : Files) (msg : Bytes) (as : List Attachment) : List Ev :=
  .part ⟨textPlain, base64Name, [], none, some (Base64.encode msg)⟩ ::
    as.map fun a => .part (attachmentPart F a)

/-- `New` (mime.go:139-158). -/
def new (F : Files) (h : Header) (msg : Bytes) (as : List Attachment) : Mail :=
  mailHeader h (splitMessage msg).1 (multipartMIME F msg as)

/-! ### Chunks -/

/-- One step of the loop of `EncodeChunks` (mime.go:173-203), with the slice
expression `msg[i*size:end]` panicking when out of range. -/
def encodeChunk (h : Header) (msg : Bytes) (size num i : UInt64) : Res Err Mail :=
  let msgLen := UInt64.ofNat msg.length
  let stop := (i + 1) * size
  let stop := if stop > msgLen then msgLen else stop
  let start := i * size
  if start.toNat ≤ stop.toNat ∧ stop.toNat ≤ msg.length then
    .ok (mailHeader h [] [.part ⟨[], base64Name, [], some ⟨some (i + 1), some num, h.messageID⟩,
      some ((msg.take stop.toNat).drop start.toNat)⟩])
  else .panic

/-- The loop over `i`. -/
def encodeLoop (h : Header) (msg : Bytes) (size num : UInt64) : List UInt64 → Res Err (List Mail)
  | [] => .ok []
  | i :: is =>
    match encodeChunk h msg size num i with
    | .ok c => match encodeLoop h msg size num is with
      | .ok cs => .ok (c :: cs)
      | .err e => .err e
      | .panic => .panic
    | .err e => .err e
    | .panic => .panic

/-- `EncodeChunks` (mime.go:162-205); a zero size divides by zero. -/
def encodeChunks (h : Header) (msg : Bytes) (size : UInt64) : Res Err (List Mail) :=
  if size = 0 then .panic else
  let msgLen := UInt64.ofNat msg.length
  let num := msgLen / size
  let num := if msgLen % size > 0 then num + 1 else num
  encodeLoop h msg size num ((List.range num.toNat).map UInt64.ofNat)

/-- The `Cc` field as read back: absent, unparsable, or a list of addresses. -/
def readCc : Option (Option (List Bytes)) → Res Err (Option (List Bytes))
  | none => .ok none
  | some none => .err .cc
  | some (some l) => .ok (some l)

/-- `DecodeChunk` (mime.go:208-276): header, part, piece and count. -/
def decodeChunk (m : Mail) : Res Err (Header × Bytes × UInt64 × UInt64) :=
  match readCc m.cc with
  | .panic => .panic
  | .err e => .err e
  | .ok cc =>
    if m.mixed = false then .err .mediaType else
    match m.parts with
    | [] => .err .part
    | .bad :: _ => .err .part
    | .part p :: _ =>
      match p.chunk with
      | none => .err .contentType
      | some c => match c.piece with
        | none => .err .piece
        | some piece => match c.count with
          | none => .err .count
          | some count =>
            if c.chunkid ≠ m.messageID then .err .chunkID else
            match p.body with
            | none => .err .read
            | some part => .ok (⟨m.src, m.dst, cc, m.messageID, m.inReplyTo⟩, part, piece, count)

/-! ### Parsing -/

/-- The loop over the dispositions (mime.go:380-395): file name and inline
flag. -/
def readDisp : List Disp → Bytes × Bool → Res Err (Bytes × Bool)
  | [], r => .ok r
  | .attachment f :: ds, (_, i) => readDisp ds (f, i)
  | .inline :: ds, (f, _) => readDisp ds (f, true)
  | .other :: _, _ => .err .disposition
  | .malformed :: _, _ => .err .disposition

/-- The attachment loop (mime.go:367-420). An error of `NextPart` other than
the end of the stream leaves `p` nil, and line 373 dereferences it. -/
def readAttachments : List Ev → Res Err (List Attachment)
  | [] => .ok []
  | .bad :: _ => .panic
  | .part p :: evs =>
    if p.ctype = [] then .err .contentType else
    match readDisp p.disp ([], false) with
    | .panic => .panic
    | .err e => .err e
    | .ok (filename, inline) =>
      match p.body with
      | none => .err .read
      | some enc => match Base64.decode enc with
        | none => .err .base64
        | some content => match readAttachments evs with
          | .ok as => .ok (⟨filename, content, p.ctype, inline⟩ :: as)
          | .err e => .err e
          | .panic => .panic

/-- `Parse` (mime.go:279-424), after `mail.ReadMessage`: header, subject,
message and attachments. The subject's word decoding undoes the encoding of
`mailHeader` and is not modelled. -/
def parse (m : Mail) : Res Err (Header × Bytes × Bytes × List Attachment) :=
  if m.src = [] then .err .noFrom
  else if m.dst = [] then .err .noTo
  else match readCc m.cc with
  | .panic => .panic
  | .err e => .err e
  | .ok cc =>
    if m.subject = [] then .err .noSubject
    else if m.messageID = [] then .err .noMessageID
    else if m.mimeVersion ≠ version10 then .err .version
    else if m.mixed = false then .err .mediaType
    else match m.parts with
    | [] => .err .part
    | .bad :: _ => .err .part
    | .part p :: evs =>
      if p.ctype ≠ textPlain then .err .contentType
      else if p.cte ≠ base64Name then .err .transferEncoding
      else match p.body with
      | none => .err .read
      | some enc => match Base64.decode enc with
        | none => .err .base64
        | some message => match readAttachments evs with
          | .ok as => .ok (⟨m.src, m.dst, cc, m.messageID, m.inReplyTo⟩, m.subject, message, as)
          | .err e => .err e
          | .panic => .panic

end Verif.Mime
