import Verif.Go
/-
Model of the packet framing of package msg and of package encode.
A writer is the list of bytes written; a reader is the list of bytes still to
come, and reading returns the rest.  `log.Error(err)` returns its argument.
-/
namespace Verif.Wire

/-- Errors the framing code returns. `eof` stands for io.EOF and
io.ErrUnexpectedEOF alike. -/
inductive Err where
  | eof
  | badOuterType (t : UInt8)
  | badInnerType (t : UInt8)
  | badVersion (v : UInt16)
  | badSuiteLen (l : UInt16)
  | badSuite
  | notPreHeader
  | wrongCount
  deriving DecidableEq, Repr

abbrev R := Res Err

/-- `io.ReadFull(r, make([]byte, n))`. -/
def readN (n : Nat) (r : Bytes) : R (Bytes × Bytes) :=
  if r.length < n then .err .eof else .ok (r.take n, r.drop n)

/-- `binary.Read` of a `uint8`. -/
def read8 : Bytes → R (UInt8 × Bytes)
  | a :: r => .ok (a, r)
  | _ => .err .eof

/-- `binary.Read` of a big-endian `uint16`. -/
def read16 : Bytes → R (UInt16 × Bytes)
  | a :: b :: r => .ok (fromBe16 a b, r)
  | _ => .err .eof

/-- `binary.Read` of a big-endian `uint32`. -/
def read32 : Bytes → R (UInt32 × Bytes)
  | a :: b :: c :: d :: r => .ok (fromBe32 a b c d, r)
  | _ => .err .eof

/-! ### Outer header -/

/-- msg/outer.go:14-24, `outerHeader`. -/
structure Outer where
  type : UInt8
  plen : UInt16
  count : UInt32
  inner : Bytes
  deriving DecidableEq, Repr

/-- msg/outer.go:27-33. -/
def preHeaderPacket : UInt8 := 1
def encryptedHeader : UInt8 := 2
def cryptoSetup : UInt8 := 4
def hmacPacket : UInt8 := 8
def encryptedPacket : UInt8 := 16

/-- msg/outer.go:45-52, `newOuterHeader`; `uint16(len(inner))` truncates. -/
def newOuter (t : UInt8) (count : UInt32) (inner : Bytes) : Outer :=
  { type := t, plen := UInt16.ofNat inner.length, count := count, inner := inner }

/-- msg/outer.go:54-56, `size` (16-bit arithmetic). -/
def Outer.size (oh : Outer) : UInt16 := 1 + 2 + 4 + oh.plen

/-- msg/outer.go:58-74, `write`; the writer never fails in the model. -/
def Outer.write (oh : Outer) (withInner : Bool) : Bytes :=
  oh.type :: (be16 oh.plen ++ (be32 oh.count ++ (if withInner then oh.inner else [])))

/-- The type check of msg/outer.go:83-89. -/
def outerTypeOk (t : UInt8) : Bool :=
  !(t != preHeaderPacket && t != encryptedHeader && t != cryptoSetup &&
    t != hmacPacket && t != encryptedPacket)

/-- msg/outer.go:76-104, `readOuterHeader`. -/
def readOuter (r : Bytes) : R (Outer × Bytes) := do
  let (t, r) ← read8 r
  if !outerTypeOk t then .err (.badOuterType t) else
  let (plen, r) ← read16 r
  let (count, r) ← read32 r
  let (inner, r) ← readN plen.toNat r
  .ok ({ type := t, plen := plen, count := count, inner := inner }, r)

/-! ### Inner header -/

/-- msg/inner.go:15-20. -/
def paddingType : UInt8 := 1
def dataType : UInt8 := 2
def signType : UInt8 := 4
def signatureType : UInt8 := 8

/-- msg/inner.go:25-35, `innerHeader`. -/
structure Inner where
  type : UInt8
  plen : UInt16
  more : UInt8
  skip : UInt8
  content : Bytes
  deriving DecidableEq, Repr

/-- msg/inner.go:37-46, `newInnerHeader`; `uint16(len(content))` truncates. -/
def newInner (t : UInt8) (more : Bool) (content : Bytes) : Inner :=
  { type := t, plen := UInt16.ofNat content.length,
    more := if more then 1 else 0, skip := 0, content := content }

/-- msg/inner.go:48-50, `size` (Go `int`). -/
def Inner.size (ih : Inner) : Nat := 1 + 2 + 1 + 1 + ih.content.length

/-- msg/inner.go:52-69, `write`. -/
def Inner.write (ih : Inner) : Bytes :=
  ih.type :: (be16 ih.plen ++ (ih.more :: ih.skip :: ih.content))

/-- The type check of msg/inner.go:78-83. -/
def innerTypeOk (t : UInt8) : Bool :=
  !(t != paddingType && t != dataType && t != (dataType ||| signType) &&
    t != signatureType)

/-- msg/inner.go:71-102, `readInnerHeader`. -/
def readInner (r : Bytes) : R (Inner × Bytes) := do
  let (t, r) ← read8 r
  if !innerTypeOk t then .err (.badInnerType t) else
  let (plen, r) ← read16 r
  let (more, r) ← read8 r
  let (skip, r) ← read8 r
  let (content, r) ← readN plen.toNat r
  .ok ({ type := t, plen := plen, more := more, skip := skip, content := content }, r)

/-! ### Pre-header -/

/-- msg/msg.go:10, `Version`. -/
def version : UInt16 := 1

/-- msg/msg.go:13, the 28 bytes of "CURVE25519 XSALSA20 POLY1305". -/
def ciphersuite : Bytes :=
  [67, 85, 82, 86, 69, 50, 53, 53, 49, 57, 32, 88, 83, 65, 76, 83, 65, 50, 48,
   32, 80, 79, 76, 89, 49, 51, 48, 53]

/-- msg/preheader.go:14-20, `preHeader`. -/
structure Pre where
  version : UInt16
  lenSuite : UInt16
  suite : Bytes
  lenPub : UInt16
  pub : Bytes
  deriving DecidableEq, Repr

/-- msg/preheader.go:22-31, `newPreHeader`. -/
def newPre (pub : Bytes) : Pre :=
  { version := version, lenSuite := UInt16.ofNat ciphersuite.length,
    suite := ciphersuite, lenPub := UInt16.ofNat pub.length, pub := pub }

/-- msg/preheader.go:33-55, `write`. -/
def Pre.write (ph : Pre) : Bytes :=
  be16 ph.version ++ (be16 ph.lenSuite ++ (ph.suite ++ (be16 ph.lenPub ++ ph.pub)))

/-- msg/preheader.go:57-96, `readPreHeader`. -/
def readPre (r : Bytes) : R (Pre × Bytes) := do
  let (v, r) ← read16 r
  if v != version then .err (.badVersion v) else
  let (ls, r) ← read16 r
  if ls != UInt16.ofNat ciphersuite.length then .err (.badSuiteLen ls) else
  let (s, r) ← readN ls.toNat r
  if s != ciphersuite then .err .badSuite else
  let (lp, r) ← read16 r
  let (pub, r) ← readN lp.toNat r
  .ok ({ version := v, lenSuite := ls, suite := s, lenPub := lp, pub := pub }, r)

/-- msg/first.go:22-56, `ReadFirstOuterHeader`: version, pre-header bytes, rest. -/
def readFirst (r : Bytes) : R (UInt16 × Bytes × Bytes) := do
  let (t, r) ← read8 r
  if t != preHeaderPacket then .err .notPreHeader else
  let (plen, r) ← read16 r
  let (count, r) ← read32 r
  if count != 0 then .err .wrongCount else
  let (pre, r) ← readN plen.toNat r
  let (v, _) ← read16 pre
  .ok (v, pre, r)

/-! ### Package encode -/

/-- encode/convert.go:36-47, `ToByte8`. -/
def toByte8 (u : UInt64) : Bytes :=
  [u.toUInt8, (u >>> 8).toUInt8, (u >>> 16).toUInt8, (u >>> 24).toUInt8,
   (u >>> 32).toUInt8, (u >>> 40).toUInt8, (u >>> 48).toUInt8, (u >>> 56).toUInt8]

/-- encode/convert.go:9-22, `ToUint64`. -/
def toUint64 : Bytes → Res Err UInt64
  | [b0, b1, b2, b3, b4, b5, b6, b7] =>
    .ok (b7.toUInt64 <<< 56 ||| b6.toUInt64 <<< 48 ||| b5.toUInt64 <<< 40 |||
      b4.toUInt64 <<< 32 ||| b3.toUInt64 <<< 24 ||| b2.toUInt64 <<< 16 |||
      b1.toUInt64 <<< 8 ||| b0.toUInt64)
  | _ => .panic

/-- encode/convert.go:50-55, `ToByte2`. -/
def toByte2 (u : UInt16) : Bytes := [u.toUInt8, (u >>> 8).toUInt8]

/-- encode/convert.go:26-33, `ToUint16`. -/
def toUint16 : Bytes → Res Err UInt16
  | [b0, b1] => .ok (b1.toUInt16 <<< 8 ||| b0.toUInt16)
  | _ => .panic

/-- encode/convert.go:58-62, `ToByte1`. -/
def toByte1 (u : UInt8) : Bytes := [u]

end Verif.Wire
