import Verif.Model.Values
import Verif.Model.Listing
/-
Project exports: l5x/types.go and `LoadTags` of l5x/load_tags.go.

Not modelled: reading the XML (encoding/xml, schema.go), `strconv.ParseFloat` (a parameter), exports without
the sections `Controller`, `Tags` or `Programs` (nil pointers).  The comment loaders are in Model/L5xComments.
-/
namespace Gologix

/-- `strconv.ParseBool`, the value it returns next to an ignored error. -/
def parseBool (s : Str) : Bool :=
  s = str "1" || s = str "t" || s = str "T" || s = str "TRUE" || s = str "true" || s = str "True"

/-- l5x/types.go:8-47 `L5xTypeToGoType`; the error of the conversions is ignored there, and the function never
returns one.  `pf` is `strconv.ParseFloat(s, 64)`. -/
def l5xValue (pf : Str → BitVec 64) (typ v : Str) : Scal :=
  if typ = str "REAL" then .f64 (pf v)
  else if typ = str "DINT" then .i32 (BitVec.ofInt 32 (parseInt 32 v).val)
  else if typ = str "BOOL" ∨ typ = str "BIT" then .bool (parseBool v)
  else if typ = str "INT" then .i16 (BitVec.ofInt 16 (parseInt 16 v).val)
  else if typ = str "STRING" then .str v
  else if typ = str "SINT" then .i8 (BitVec.ofInt 8 (parseInt 8 v).val)
  else if typ = str "LINT" then .i64 (BitVec.ofInt 64 (parseInt 64 v).val)
  else if typ = str "BYTE" then .u8 (BitVec.ofInt 8 (parseInt 8 v).val)
  else if typ = str "WORD" then .u16 (BitVec.ofInt 16 (parseInt 16 v).val)
  else if typ = str "DWORD" then .u32 (BitVec.ofInt 32 (parseInt 32 v).val)
  else if typ = str "LWORD" then .u64 (BitVec.ofInt 64 (parseInt 64 v).val)
  else .str (str "Unknown type: " ++ typ)

/-- A member of a structure (`DataValueMember`): name, type, value attribute, character data. -/
structure L5xMember where
  name  : Str
  typ   : Str
  value : Str
  cdata : Str
deriving DecidableEq, Repr

/-- An element of an array. -/
structure L5xElem where
  value  : Str
  struct : Option (List (List L5xMember))
deriving DecidableEq, Repr

/-- A `Data` section of a tag. -/
structure L5xData where
  value  : Option Str
  struct : Option (List L5xMember)
  array  : Option (List L5xElem)
deriving DecidableEq, Repr

structure L5xTag where
  name : Str
  typ  : Str
  dims : Str
  data : List L5xData
deriving DecidableEq, Repr

structure L5xProgram where
  name : Str
  tags : List L5xTag
deriving DecidableEq, Repr

/-- Values in the result: Go `any`. -/
inductive LVal where
  | scal (v : Scal)
  | map (m : List (Str × Scal))
  | arr (vs : List (Scal ⊕ List (Str × Scal)))

inductive LTop where
  | val (v : LVal)
  | prog (m : List (Str × LVal))

/-- l5x/load_tags.go:15-26: the tags of the controller. -/
def loadController (pf : Str → BitVec 64) : List L5xTag → List (Str × LTop) → List (Str × LTop)
  | [], m => m
  | t :: ts, m => match t.data with
    | _ :: d :: _ => match d.value with
      | some v => loadController pf ts (mapPut m t.name (.val (.scal (l5xValue pf t.typ v))))
      | none => loadController pf ts m
    | _ => loadController pf ts m

/-- l5x/load_tags.go:46-52: the members of a structure. -/
def loadStruct (pf : Str → BitVec 64) (ms : List L5xMember) : List (Str × Scal) :=
  ms.foldl (fun m e => mapPut m e.name (l5xValue pf e.typ e.value)) []

/-- l5x/load_tags.go:67-81: the members of a structure in an array; texts are character data there. -/
def loadElemStruct (pf : Str → BitVec 64) (ms : List L5xMember) : List (Str × Scal) :=
  ms.foldl (fun m e => mapPut m e.name (l5xValue pf e.typ (if e.typ = str "STRING" then e.cdata else e.value))) []

/-- l5x/load_tags.go:64-90: the elements of an array. -/
def loadElems (pf : Str → BitVec 64) (typ : Str) : List L5xElem → Res (List (Scal ⊕ List (Str × Scal)))
  | [] => .ok []
  | e :: es => do
    let v : Scal ⊕ List (Str × Scal) ← match e.struct with
      | some [] => .panic
      | some (s :: _) => .ok (.inr (loadElemStruct pf s))
      | none => .ok (.inl (l5xValue pf typ e.value))
    let vs ← loadElems pf typ es
    .ok (v :: vs)

/-- `make([]any, 0, n)`, which panics for a negative `n` and one beyond the address space; running out of
memory is not modelled. -/
def makeCap (n : Int) : Res Unit := if n < 0 ∨ 2 ^ 44 < n then .panic else .ok ()

/-- l5x/load_tags.go:32-93: one tag of a program; `none` if nothing is entered for it. -/
def loadProgTag (pf : Str → BitVec 64) (t : L5xTag) : Res (Option LVal) :=
  match t.data with
  | _ :: d :: _ =>
    match d.value with
    | some v => .ok (some (.scal (l5xValue pf t.typ v)))
    | none => match d.struct with
      | some ms => .ok (some (.map (loadStruct pf ms)))
      | none => match d.array with
        | some es =>
          if (parseInt 64 t.dims).isOk then do
            makeCap (parseInt 64 t.dims).val
            let vs ← loadElems pf t.typ es
            .ok (some (.arr vs))
          else .err .fail
        | none => .ok none
  | _ => .ok none

/-- l5x/load_tags.go:31-94: the tags of a program. -/
def loadProgTags (pf : Str → BitVec 64) : List L5xTag → List (Str × LVal) → Res (List (Str × LVal))
  | [], m => .ok m
  | t :: ts, m => do
    let v ← loadProgTag pf t
    loadProgTags pf ts (match v with
      | some v => mapPut m t.name v
      | none => m)

/-- l5x/load_tags.go:28-97: the programs. -/
def loadPrograms (pf : Str → BitVec 64) : List L5xProgram → List (Str × LTop) → Res (List (Str × LTop))
  | [], m => .ok m
  | p :: ps, m => do
    let tags ← loadProgTags pf p.tags []
    loadPrograms pf ps (mapPut m (str "program:" ++ p.name) (.prog tags))

/-- l5x/load_tags.go:9-100 `LoadTags`. -/
def loadTags (pf : Str → BitVec 64) (controller : List L5xTag) (programs : List L5xProgram) :
    Res (List (Str × LTop)) :=
  loadPrograms pf programs (loadController pf controller [])

end Gologix
