import Verif.Model.Server
import Verif.Model.Write
import Verif.Model.Ioi
/-
Symbol types, response codes, identity, services and the program list: listalltags.go:16-58,
listmembers.go:313-326, services.go:14-26, listidentity.go, listservices.go, listallprograms.go.
-/
namespace Gologix

/-- listalltags.go:16-22 `TagInfo`. -/
structure TagInfo where
  type     : Byte
  typeInfo : Byte
  dim1     : BitVec 32
  dim2     : BitVec 32
  dim3     : BitVec 32
deriving DecidableEq, Repr

/-- listalltags.go:27, 38, 45: `binary.LittleEndian.Uint16` of the two type bytes. -/
def TagInfo.word (f : TagInfo) : BitVec 16 := BitVec.ofNat 16 (unle [f.type, f.typeInfo])

/-- listalltags.go:26-33 `PreDefined`. -/
def TagInfo.preDefined (f : TagInfo) : Bool := decide (f.word &&& 0x0FFF#16 ≤ 0x0100#16)

/-- listalltags.go:37-40 `Atomic`. -/
def TagInfo.atomic (f : TagInfo) : Bool := f.word &&& 0x9000#16 == 0#16

/-- listalltags.go:46-56 and listmembers.go:315-325: the template number of a type word. -/
def templateOf (val : BitVec 16) : BitVec 16 :=
  if val &&& (1#16 <<< 15) == 0#16 || val &&& (1#16 <<< 12) != 0#16 then 0#16 else val &&& 0x0FFF#16

/-- listalltags.go:44-58 `Template_ID`. -/
def TagInfo.templateId (f : TagInfo) : BitVec 16 := templateOf f.word

/-- listmembers.go:141-145 `msgMemberInfo`. -/
structure MemberInfo where
  info   : BitVec 16
  type   : BitVec 16
  offset : BitVec 32
deriving DecidableEq, Repr

/-- listmembers.go:313-326 `UDTMemberDescriptor.Template_ID`. -/
def MemberInfo.templateId (m : MemberInfo) : BitVec 16 := templateOf m.type

/-- services.go:14-18 `IsResponse`. -/
def isResponse (s : Byte) : Bool := s &&& 0x80#8 != 0#8

/-- services.go:19-22 `AsResponse`. -/
def asResponse (s : Byte) : Byte := s ||| 0x80#8

/-- services.go:23-26 `UnResponse`. -/
def unResponse (s : Byte) : Byte := s &&& 0x7F#8

/-- listidentity.go:87-93. -/
structure SocketAddress where
  family  : BitVec 16
  port    : BitVec 16
  address : BitVec 32
  zero0   : BitVec 32
  zero1   : BitVec 32
deriving DecidableEq, Repr

/-- listidentity.go:74-85 `listIdentityResponeBody`. -/
structure IdentityBody where
  version  : BitVec 16
  socket   : SocketAddress
  vendor   : BitVec 16
  device   : BitVec 16
  product  : BitVec 16
  revision : BitVec 16
  status   : BitVec 16
  serial   : BitVec 32
  name     : Str
  state    : Byte
deriving DecidableEq, Repr

/-- A big-endian load. -/
def beBV (w : Nat) (b : Bytes) : BitVec w := BitVec.ofNat w (unle b.reverse)

/-- listidentity.go:104: `binary.Read` of the whole address in big-endian order. -/
def readSocket (src : Bytes) : Res (SocketAddress × Bytes) := do
  let (b, r) ← readN 16 src
  .ok ({ family := beBV 16 (b.take 2), port := beBV 16 ((b.drop 2).take 2),
         address := beBV 32 ((b.drop 4).take 4), zero0 := beBV 32 ((b.drop 8).take 4),
         zero1 := beBV 32 ((b.drop 12).take 4) }, r)

/-- listidentity.go:95-153 `ParseFromBytes`. -/
def parseIdentity (data : Bytes) : Res IdentityBody := do
  let (version, r) ← readBV 16 data
  let (socket, r) ← readSocket r
  let (vendor, r) ← readBV 16 r
  let (device, r) ← readBV 16 r
  let (product, r) ← readBV 16 r
  let (revision, r) ← readBV 16 r
  let (status, r) ← readBV 16 r
  let (serial, r) ← readBV 32 r
  let (len, r) ← readBV 8 r
  let (name, r) ← readN len.toNat r
  let (state, _) ← readBV 8 r
  .ok { version, socket, vendor, device, product, revision, status, serial, name, state }

/-- listidentity.go:55-71: what `ListIdentity` makes of the payload of the reply. -/
def listIdentity (payload : Bytes) : Res IdentityBody := do
  let (items, _) ← readItems payload
  match items with
  | [] => .err .fail
  | it :: _ => parseIdentity it.data

/-- listservices.go:64-68 `CIPListService`. -/
structure ServiceRec where
  version : BitVec 16
  caps    : BitVec 16
  name    : Str
deriving DecidableEq, Repr

/-- `bytes.TrimRight(b, "\x00")`. -/
def trimNul (b : Bytes) : Bytes := (b.reverse.dropWhile (· == 0#8)).reverse

/-- listservices.go:70-93 `ParseFromBytes`. -/
def parseService (data : Bytes) : Res ServiceRec := do
  let (version, r) ← readBV 16 data
  let (caps, r) ← readBV 16 r
  let (name, _) ← readN 16 r
  .ok { version, caps, name := trimNul name }

/-- The loop of listservices.go:53-59. -/
def parseServices : List Item → Res (List ServiceRec)
  | [] => .ok []
  | it :: its => do
    let s ← parseService it.data
    let ss ← parseServices its
    .ok (s :: ss)

/-- listservices.go:48-61: what `ListServices` makes of the payload of the reply. -/
def listServices (payload : Bytes) : Res (List ServiceRec) := do
  let (items, _) ← readItems payload
  parseServices items

/-- Assignment to an entry of a Go map, as a list of keys and values in which no key occurs twice. -/
def mapPut {α : Type} (m : List (Str × α)) (k : Str) (v : α) : List (Str × α) :=
  m.filter (fun e => e.1 ≠ k) ++ [(k, v)]

/-- `strings.TrimSpace`.  Simplification: only the ASCII white space characters. -/
def isSpaceByte (b : Byte) : Bool := b == 0x20#8 || (decide (9 ≤ b.toNat) && decide (b.toNat ≤ 13))

def trimSpace (s : Str) : Str := ((s.dropWhile isSpaceByte).reverse.dropWhile isSpaceByte).reverse

/-- The loop of listallprograms.go:34-53 over the unread rest of the item.  An error reading the header
of an entry ends the loop as if the list were complete.  Each round takes at least 8 bytes, so the
length of the data plus one is enough fuel. -/
def programsLoop : Nat → Bytes → List (Str × KnownProgram) → Res (List (Str × KnownProgram))
  | 0, _, acc => .ok acc
  | f + 1, d, acc =>
    match readN 8 d with
    | .ok (h, r) => do
      let (name, r) ← readN (unle (h.drop 4)) r
      programsLoop f r (mapPut acc (trimSpace name)
        { name := trimSpace name, id := BitVec.ofNat 32 (unle (h.take 2)) })
    | _ => .ok acc

/-- listallprograms.go:26-57: what `ListAllPrograms` makes of the reply. -/
def listPrograms (r : Reply) : Res (List (Str × KnownProgram)) := do
  let d ← genericReply 0x55#8 r
  programsLoop (d.length + 1) d []

/-- listallprograms.go:12-26 and getattr.go:427-443: the data of item 1 of the request. -/
def programsRequest (seq : BitVec 16) : Bytes :=
  let path := classBytes 0x68#16 ++ instanceBytes 0#32
  putBV seq ++ [0x55#8, pathLengthOf path] ++ path ++ (putBV 1#16 ++ putBV 28#16)

end Gologix
