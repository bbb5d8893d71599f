import Verif.Model.Listing
/-
The tag list: listalltags.go:115-346 `ListAllTags`, listsubtags.go:15-153 `ListSubTags`.

What the rest of the client does with a request is a parameter: `net n req` is the outcome of the
`n`-th exchange when the data of item 1 of the request is `req`.  The functions run on fuel; the result
`none` means that they have not returned yet.

Not modelled: `ListMembers` (called at listalltags.go:295 for structures; its errors are only logged, it
fills in `KnownTag.UDT` and the type tables and does not touch the tag list) and the debug logging.
-/
namespace Gologix

/-- One entry of a symbol list reply: listalltags.go:11-22. -/
structure Sym where
  inst : BitVec 32
  name : Str
  info : TagInfo
deriving DecidableEq, Repr

/-- client.go:208-216 `KnownTag` without `UDT` and `DataTableID`. -/
structure ListedTag where
  name   : Str
  info   : TagInfo
  inst   : BitVec 32
  order  : List Nat
  parent : Option KnownProgram
deriving DecidableEq, Repr

/-- The outside of the listing functions: the exchanges, the sequence counts, and the order in which Go
iterates over a map. -/
structure ListWorld where
  net : Nat → Bytes → Res Reply
  seq : Nat → BitVec 16
  ord : List (Str × KnownProgram) → List (Str × KnownProgram)

/-- The fields of the client the listing functions change, and the number of exchanges so far. -/
structure ListSt where
  tags  : List (Str × ListedTag)
  progs : List (Str × KnownProgram)
  n     : Nat
deriving DecidableEq, Repr

/-- listalltags.go:220-241, listsubtags.go:93-112: one entry. -/
def readSym (d : Bytes) : Res (Sym × Bytes) := do
  let (h, r) ← readN 6 d
  let (name, r) ← readN (unle (h.drop 4)) r
  let (t, r) ← readN 14 r
  .ok ({ inst := BitVec.ofNat 32 (unle (h.take 4)), name,
         info := { type := t.getD 0 0#8, typeInfo := t.getD 1 0#8,
                   dim1 := BitVec.ofNat 32 (unle ((t.drop 2).take 4)),
                   dim2 := BitVec.ofNat 32 (unle ((t.drop 6).take 4)),
                   dim3 := BitVec.ofNat 32 (unle ((t.drop 10).take 4)) } }, r)

/-- The entries the loops of listalltags.go:218 and listsubtags.go:91 see, and how the decoding ends.
In the code decoding and recording alternate; recording an entry does not depend on later ones.  An
entry has at least 20 bytes, so the length of the data plus one is enough fuel. -/
def readSyms : Nat → Bytes → List Sym × Res Unit
  | 0, _ => ([], .ok ())
  | f + 1, d =>
    if d = [] then ([], .ok ())
    else match readSym d with
      | .ok (s, r) => let (ss, e) := readSyms f r; (s :: ss, e)
      | .err e => ([], .err e)
      | .panic => ([], .panic)

/-- listalltags.go:328-346 `isValidTag`. -/
def isValidTag (name : Str) : Bool :=
  if name = [] then false
  else if (str "__").isPrefixOf name then false
  else if name.contains 0x3A#8 && !(str "Program").isPrefixOf name then false
  else true

/-- listalltags.go:248-262, listsubtags.go:120-134. -/
def arrayOrder (i : TagInfo) : List Nat :=
  if i.dim3 ≠ 0 then [i.dim1.toNat, i.dim2.toNat, i.dim3.toNat]
  else if i.dim2 ≠ 0 then [i.dim1.toNat, i.dim2.toNat]
  else if i.dim1 ≠ 0 then [i.dim1.toNat]
  else []

/-- listsubtags.go:29-57 and listalltags.go:147-182: the data of item 1 of a request; `pre` is the path
of the program, empty for the controller. -/
def symbolsRequest (seq : BitVec 16) (pre : Bytes) (start : BitVec 32) : Bytes :=
  let path := pre ++ classBytes 0x6B#16 ++ instanceBytes start
  putBV seq ++ [0x55#8, pathLengthOf path] ++ path ++ (putBV 3#16 ++ putBV 1#16 ++ putBV 2#16 ++ putBV 8#16)

/-- listsubtags.go:68-87 and listalltags.go:195-214: status and entries of a reply.  `data.Read` of the
padding fails only on an empty buffer. -/
def symbolsPage (r : Reply) : Res (BitVec 16 × Bytes) :=
  if r.payload = [] then .err .eof
  else do
    let d ← item1 (r.payload.drop 6)
    let (h, d) ← readN 6 d
    .ok (BitVec.ofNat 16 (unle (h.drop 4)), d)

/-- One exchange and the status and entries of its reply. -/
def askPage (W : ListWorld) (pre : Bytes) (start : BitVec 32) (st : ListSt) : Res (BitVec 16 × Bytes) × ListSt :=
  ((W.net st.n (symbolsRequest (W.seq st.n) pre start)).bind symbolsPage, { st with n := st.n + 1 })

/-- listsubtags.go:102, 114-119: the record of an entry of a program's list. -/
def subTag (p : KnownProgram) (s : Sym) : ListedTag :=
  { name := str "program:" ++ p.name ++ str "." ++ s.name, info := s.info, inst := s.inst,
    order := arrayOrder s.info, parent := some p }

/-- listsubtags.go:91-143: the loop over the entries; the tags recorded and the last instance recorded. -/
def subEach (p : KnownProgram) : List Sym → BitVec 32 → ListSt → List ListedTag × BitVec 32 × ListSt
  | [], start, st => ([], start, st)
  | s :: ss, start, st =>
    if isValidTag s.name then
      let kt := subTag p s
      let (kts, r) := subEach p ss s.inst { st with tags := mapPut st.tags (toLower kt.name) kt }
      (kt :: kts, r)
    else subEach p ss start st

/-- listsubtags.go:15-153 `ListSubTags`. -/
def subTags (W : ListWorld) : Nat → KnownProgram → BitVec 32 → ListSt → Option (Res (List ListedTag) × ListSt)
  | 0, _, _, _ => none
  | f + 1, p, start, st =>
    let start := if start = 0 then 1 else start
    match askPage W p.bytes start st with
    | (.ok (status, d), st) =>
      let (ss, e) := readSyms (d.length + 1) d
      let (kts, start, st) := subEach p ss start st
      match e with
      | .ok () =>
        if status = 6#16 then
          match subTags W f p start st with
          | some (.ok _, st) => some (.ok kts, st)
          | some (.err _, st) => some (.err .fail, st)
          | some (.panic, st) => some (.panic, st)
          | none => none
        else some (.ok kts, st)
      | .err e => some (.err e, st)
      | .panic => some (.panic, st)
    | (.err e, st) => some (.err e, st)
    | (.panic, st) => some (.panic, st)

/-- listalltags.go:135-141: the loop over the programs. -/
def subEachProgram (W : ListWorld) (f : Nat) : List (Str × KnownProgram) → ListSt → Option (Res Unit × ListSt)
  | [], st => some (.ok (), st)
  | (_, p) :: ps, st =>
    match subTags W f p 1 st with
    | some (.ok _, st) => subEachProgram W f ps st
    | some (.err _, st) => some (.err .fail, st)
    | some (.panic, st) => some (.panic, st)
    | none => none

/-- listalltags.go:124-142: list the programs, then the tags of each.  The result tells whether program
names are to be taken from the symbol list. -/
def listProgramTags (W : ListWorld) (f : Nat) (st : ListSt) : Option (Res Bool × ListSt) :=
  match W.net st.n (programsRequest (W.seq st.n)) with
  | .ok r =>
    let st := { st with n := st.n + 1 }
    match listPrograms r with
    | .ok m =>
      match subEachProgram W f (W.ord m) { st with progs := m } with
      | some (.ok (), st) => some (.ok false, st)
      | some (.err e, st) => some (.err e, st)
      | some (.panic, st) => some (.panic, st)
      | none => none
    | .err (.cipStatus _) => some (.ok true, { st with progs := [] })
    | .err _ => some (.err .fail, st)
    | .panic => some (.panic, st)
  | .err _ => some (.err .fail, { st with n := st.n + 1 })
  | .panic => some (.panic, st)

/-- listalltags.go:243-262: the record of an entry. -/
def mainTag (s : Sym) : ListedTag :=
  { name := s.name, info := s.info, inst := s.inst, order := arrayOrder s.info, parent := none }

def recordMain (s : Sym) (st : ListSt) : ListSt :=
  { st with tags := mapPut st.tags (toLower s.name) (mainTag s) }

/-- listalltags.go:264-314: the loop over the entries. -/
def mainEach (W : ListWorld) (f : Nat) (fallback : Bool) : List Sym → ListSt → Option (Res Unit × ListSt)
  | [], st => some (.ok (), st)
  | s :: ss, st =>
    if !isValidTag s.name then mainEach W f fallback ss st
    else if 8 < s.name.length ∧ (str "Program:").isPrefixOf s.name = true then
      if !fallback then mainEach W f fallback ss st
      else
        let p : KnownProgram := { name := s.name.drop 8, id := 0 }
        match subTags W f p 1 { st with progs := mapPut st.progs (toLower p.name) p } with
        | some (.ok _, st) => mainEach W f fallback ss (recordMain s st)
        | some (.err _, st) => some (.err .fail, st)
        | some (.panic, st) => some (.panic, st)
        | none => none
    else mainEach W f fallback ss (recordMain s st)

/-- listalltags.go:224: the instance the next request starts from. -/
def lastInst (start : BitVec 32) (ss : List Sym) : BitVec 32 := (ss.getLast?.map (·.inst)).getD start

/-- listalltags.go:115-324 `ListAllTags`. -/
def allTags (W : ListWorld) : Nat → BitVec 32 → ListSt → Option (Res Unit × ListSt)
  | 0, _, _ => none
  | f + 1, start, st =>
    let start := if start.toNat < 1 then 1 else start
    match (if start = 1 then listProgramTags W f st else some (.ok false, st)) with
    | some (.ok fallback, st) =>
      match askPage W [] start st with
      | (.ok (status, d), st) =>
        let (ss, e) := readSyms (d.length + 1) d
        match mainEach W f fallback ss st with
        | some (.ok (), st) =>
          match e with
          | .ok () => if status = 6#16 then allTags W f (lastInst start ss) st else some (.ok (), st)
          | .err e => some (.err e, st)
          | .panic => some (.panic, st)
        | r => r
      | (.err e, st) => some (.err e, st)
      | (.panic, st) => some (.panic, st)
    | some (.err e, st) => some (.err e, st)
    | some (.panic, st) => some (.panic, st)
    | none => none

end Gologix
