import Verif.Base.Str
import Verif.Model.Segments
/-
Tag paths: ioi.go.
-/
namespace Gologix

/-- types.go:77-113, the CIP type codes used here. -/
def tUnknown : Byte := 0x00#8
def tStruct  : Byte := 0xA0#8
def tBOOL    : Byte := 0xC1#8
def tSINT    : Byte := 0xC2#8
def tINT     : Byte := 0xC3#8
def tDINT    : Byte := 0xC4#8
def tLINT    : Byte := 0xC5#8
def tUSINT   : Byte := 0xC6#8
def tUINT    : Byte := 0xC7#8
def tUDINT   : Byte := 0xC8#8
def tULINT   : Byte := 0xC9#8
def tREAL    : Byte := 0xCA#8
def tLREAL   : Byte := 0xCB#8
def tBYTE    : Byte := 0xD1#8
def tWORD    : Byte := 0xD2#8
def tDWORD   : Byte := 0xD3#8
def tLWORD   : Byte := 0xD4#8
def tSTRING  : Byte := 0xFF#8

/-- Regular expression `\.\d+$` (ioi.go:21) by `FindStringIndex`: the digits after the last dot, if the
text ends in a dot followed by at least one digit. -/
def bitAccessText (s : Str) : Option Str :=
  let ds := s.reverse.takeWhile isDigit
  let before := s.reverse.dropWhile isDigit
  if ds = [] then none
  else match before with
    | 0x2E#8 :: _ => some ds.reverse
    | _ => none

/-- Characters of the class `([\d]|[,]|[\s])` of ioi.go:22. -/
def isIndexChar (b : Byte) : Bool :=
  isDigit b || b = 0x2C#8 || b = 0x20#8 || b = 0x09#8 || b = 0x0A#8 || b = 0x0C#8 || b = 0x0D#8

/-- Regular expression `\[([\d]|[,]|[\s])*\]$` (ioi.go:22): the text between the brackets. -/
def arrayAccessText (s : Str) : Option Str :=
  match s.reverse with
  | 0x5D#8 :: r =>
    match r.dropWhile isIndexChar with
    | 0x5B#8 :: _ => some (r.takeWhile isIndexChar).reverse
    | _ => none
  | _ => none

/-- ioi.go:13-19 `tagPartDescriptor`.  `FullPath` is never read and left out. -/
structure TagPart where
  basePath   : Str
  arrayOrder : List Int
  bitNumber  : Int
  bitAccess  : Bool
deriving DecidableEq, Repr

/-- ioi.go:53-58: parse the comma separated indices, stopping at the first that fails; the failing one
holds the value `Atoi` returned with the error, the later ones stay 0.  The flag says whether all
parsed. -/
def parseIndices : List Str → List Int × Bool
  | [] => ([], true)
  | p :: ps =>
    let n := atoi p
    if n.isOk then
      let (r, okFlag) := parseIndices ps
      (n.val :: r, okFlag)
    else (n.val :: ps.map (fun _ => 0), false)

/-- ioi.go:24-71 `tagPartDescriptor.Parse`; the descriptor as left behind and whether `nil` is
returned. -/
def parseTagName (tagpath : Str) : TagPart × Bool :=
  -- lines 26-41
  let (t, okBit) : TagPart × Bool := match bitAccessText tagpath with
    | none => ({ basePath := tagpath, arrayOrder := [], bitNumber := 0, bitAccess := false }, true)
    | some txt =>
      let n := atoi txt
      ({ basePath := removeAll txt tagpath, arrayOrder := [], bitNumber := n.val,
         bitAccess := true }, n.isOk)
  if !okBit then (t, false)
  else
    -- lines 44-67
    match arrayAccessText tagpath with
    | none => (t, true)
    | some txt =>
      let base := removeAll txt t.basePath
      -- with no comma, `Split` returns the text itself as the only part (lines 61-62)
      let (order, okArr) := parseIndices (splitOn 0x2C#8 txt)
      ({ t with basePath := base, arrayOrder := order }, okArr)

/-- ioi.go:226-245 `marshalIOIPart`. -/
def marshalIOIPart (tagpath : Str) : Res Bytes :=
  let (t, okFlag) := parseTagName tagpath
  if !okFlag then .err .fail
  else
    let size := t.basePath.length
    let msg := [0x91#8, BitVec.ofNat 8 size] ++ t.basePath
    .ok (if size % 2 = 1 then msg ++ [0#8] else msg)

/-- ioi.go:168-196: one array index of type `int` as element segment bytes. -/
def indexBytes (i : Int) : Bytes :=
  if i < 256 then [0x28#8, BitVec.ofInt 8 i]
  else if i < 65536 then putBV 0x29#16 ++ putBV (BitVec.ofInt 16 i)
  else putBV 0x2A#16 ++ putBV (BitVec.ofInt 32 i)

/-- ioi.go:82-88 `tagIOI`. -/
structure Ioi where
  path        : Str
  typ         : Byte
  bitAccess   : Bool
  bitPosition : Int
  buffer      : Bytes
deriving DecidableEq, Repr

/-- ioi.go:149-220, the body of the loop over the dot-separated parts. -/
def ioiPart (ioi : Ioi) (part : Str) : Res Ioi :=
  if part.getLast? = some 0x5D#8 then
    match indexOf 0x5B#8 part with
    | none => .panic          -- line 153: slice [0:-1]
    | some k => do
      let p ← marshalIOIPart (part.take k)
      let t := (parseTagName part).1   -- line 163: the error is only logged
      .ok { ioi with buffer := ioi.buffer ++ p ++ (t.arrayOrder.map indexBytes).flatten }
  else
    let n := atoi part
    if n.isOk ∧ n.val ≤ 31 then
      .ok { ioi with bitAccess := true, bitPosition := n.val }
    else do
      let p ← marshalIOIPart part
      .ok { ioi with buffer := ioi.buffer ++ p }

def ioiParts : Ioi → List Str → Res Ioi
  | ioi, [] => .ok ioi
  | ioi, p :: ps => do ioiParts (← ioiPart ioi p) ps

/-- ioi.go:142-220: the symbolic request path of an already lower-cased tag path. -/
def symbolicIOI (tagpath : Str) (datatype : Byte) : Res Ioi :=
  ioiParts { path := tagpath, typ := datatype, bitAccess := false, bitPosition := 0, buffer := [] }
    (splitOn 0x2E#8 tagpath)

/-- client.go:181-184 `KnownProgram`. -/
structure KnownProgram where
  name : Str
  id   : BitVec 32
deriving DecidableEq, Repr

/-- client.go:186-201 `KnownProgram.Bytes`.  CipObject_Programs is 0x68 (cip_definitions.go:374).  If the
name cannot be marshalled the result is empty (lines 190-193). -/
def KnownProgram.bytes (p : KnownProgram) : Bytes :=
  if p.id = 0 then
    match marshalIOIPart (str "Program:" ++ p.name) with
    | .ok b => b
    | _ => []
  else classBytes 0x68#16 ++ instanceBytes p.id

/-- client.go:208-216 `KnownTag`, the fields that matter for addressing: type byte of `Info`, instance
and parent program. -/
structure KnownTag where
  typ    : Byte
  inst   : BitVec 32
  parent : Option KnownProgram
deriving DecidableEq, Repr

/-- client.go:218-233 `KnownTag.Bytes`.  CipObject_Symbol is 0x6B (cip_definitions.go:324). -/
def KnownTag.bytes (t : KnownTag) : Bytes :=
  match t.parent with
  | none => classBytes 0x6B#16 ++ instanceBytes t.inst
  | some p => p.bytes ++ classBytes 0x6B#16 ++ instanceBytes t.inst

/-- What `newIOI` consults besides its arguments: the firmware major version (client.go:239-257; 0 when
it could not be read) and the map `KnownTags`. -/
structure TagDb where
  firmware : Nat
  known    : Str → Option KnownTag

/-- The memo table `client.ioi_cache`, newest entry first. -/
abbrev IoiCache := List (Str × Ioi)

/-- ioi.go:120-135: the known tag's own path, when it may be used. -/
def directBytes (db : TagDb) (tagpath : Str) (datatype : Byte) : Option Bytes :=
  if db.firmware > 20 then
    match db.known tagpath with
    | some t =>
      if t.typ ≠ 0 ∧ datatype ≠ tStruct ∧ datatype ≠ tUnknown ∧ datatype ≠ tSTRING then some t.bytes
      else none
    | none => none
  else none

/-- ioi.go:107-224 `newIOI`: result and the memo table afterwards.  The mutex of lines 108-109 makes the
call atomic, so it is one step. -/
def newIOI (db : TagDb) (cache : IoiCache) (tagpath : Str) (datatype : Byte) : Res Ioi × IoiCache :=
  match directBytes db (toLower tagpath) datatype with
  | some bytes =>
    (.ok { path := [], typ := 0, bitAccess := false, bitPosition := 0, buffer := bytes }, cache)
  | none =>
    match cache.lookup (toLower tagpath) with
    | some ioi => (.ok ioi, cache)
    | none =>
      match symbolicIOI (toLower tagpath) datatype with
      | .ok ioi => (.ok ioi, (toLower tagpath, ioi) :: cache)
      | .err e => (.err e, cache)
      | .panic => (.panic, cache)

/-- ioi.go:248-269 `getAsciiTagPart`. -/
def getAsciiTagPart (r : Bytes) : Res (Str × Bytes) := do
  let (len, r) ← readBV 8 r
  let (b, r) ← readN len.toNat r
  if len.toNat % 2 = 1 then
    let (_, r) ← readN 1 r
    .ok (b, r)
  else .ok (b, r)

/-- ioi.go:294-298 and 311-315: append an index to the tag text; indexing an empty string panics. -/
def addIndex (s : Str) (i : Nat) : Res Str :=
  match s.getLast? with
  | none => .panic
  | some c =>
    if c = 0x5D#8 then .ok (s.dropLast ++ [0x2C#8] ++ dec i ++ [0x5D#8])
    else .ok (s ++ [0x5B#8] ++ dec i ++ [0x5D#8])

/-- ioi.go:270-337 `getTagFromPath`, on the unread bytes of the item; returns the tag text and the
bytes left unread.  `fuel` bounds the loop; every iteration consumes at least one byte, so
`r.length + 1` is enough (theorem `getTagFromPath_fuel`). -/
def getTagFromPathAux : Nat → Str → Bytes → Res (Str × Bytes)
  | 0, s, r => .ok (s, r)
  | fuel + 1, s, r =>
    match r with
    | [] => .ok (s, [])                     -- io.EOF, lines 280-283
    | t :: r1 =>
      if t = 0x28#8 then do
        let (i, r2) ← readBV 8 r1
        let s ← addIndex s i.toNat
        getTagFromPathAux fuel s r2
      else if t = 0x29#8 then do
        let (_, r2) ← readN 1 r1
        let (i, r3) ← readBV 16 r2
        let s ← addIndex s i.toNat
        getTagFromPathAux fuel s r3
      else if t = 0x91#8 then do
        let (p, r2) ← getAsciiTagPart r1
        getTagFromPathAux fuel (if s = [] then p else s ++ [0x2E#8] ++ p) r2
      else .ok (s, r)                       -- line 329: un-read the byte

def getTagFromPath (r : Bytes) : Res (Str × Bytes) := getTagFromPathAux (r.length + 1) [] r

end Gologix
