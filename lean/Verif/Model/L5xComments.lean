import Verif.Model.L5x
import Verif.Model.DataTable
/-
Comments of project exports: `LoadTagComments` and `LoadRungComments` of l5x/load_tags.go:100-305, `ParseCData` of
l5x/schema.go:3982-3994.

Not modelled: reading the XML.  Sections that may be missing and are looked for are options.
-/
namespace Gologix

/-- `strings.TrimPrefix` -/
def trimPrefix (p s : Str) : Str := if p.isPrefixOf s then s.drop p.length else s

/-- `strings.TrimSuffix` -/
def trimSuffix (p s : Str) : Str := if p.reverse.isPrefixOf s.reverse then s.take (s.length - p.length) else s

/-- l5x/schema.go:3982-3994 `ParseCData` -/
def parseCData (inner : Str) : Str :=
  trimSuffix (str "'") (trimPrefix (str "'") (trimSuffix (str "]]>") (trimPrefix (str "<![CDATA[") (trimSpace inner))))

/-- A comment: what it is for, and the XML inside. -/
structure L5xComment where
  operand : Str
  inner   : Str
deriving DecidableEq, Repr

/-- A module: its connections, of each the comments on the input and on the output tag. -/
structure L5xModule where
  name  : Str
  conns : List (List L5xComment × List L5xComment)
deriving DecidableEq, Repr

/-- A member of a data type. -/
structure L5xTypeMember where
  name   : Str
  typ    : Str
  target : Str
  bit    : Int
  desc   : Option Str
deriving DecidableEq, Repr

/-- A data type. -/
structure L5xType where
  name    : Str
  desc    : Option Str
  members : Option (List L5xTypeMember)
deriving DecidableEq, Repr

/-- What is looked at of a tag for its comments, and the comments on its parts. -/
structure L5xCTag where
  name     : Str
  typ      : Str
  hasData  : Bool
  descs    : List Str
  comments : List L5xComment
deriving DecidableEq, Repr

structure L5xRung where
  number   : Str
  comments : List Str
deriving DecidableEq, Repr

structure L5xRoutine where
  name  : Str
  rungs : List L5xRung
deriving DecidableEq, Repr

structure L5xCProgram where
  name     : Str
  tags     : List L5xCTag
  routines : List L5xRoutine
deriving DecidableEq, Repr

/-- A project export. -/
structure L5xProject where
  modules  : List L5xModule
  types    : List L5xType
  tags     : List L5xCTag
  programs : List L5xCProgram
  /-- The tasks and the programs scheduled in each. -/
  tasks    : List (Str × List Str)
deriving DecidableEq, Repr

/-- l5x/load_tags.go:121-130 and 136-145: the comments of one tag of a module. -/
def channelComments (base : Str) (cs : List L5xComment) (m : List (Str × Str)) : List (Str × Str) :=
  cs.foldl (fun m c => if parseCData c.inner = [] then m else mapPut m (base ++ c.operand) (parseCData c.inner)) m

/-- l5x/load_tags.go:118-148: the comments of the connections of a module. -/
def connComments (x : L5xModule) (m : List (Str × Str)) : List (Str × Str) :=
  x.conns.foldl (fun m c => channelComments (x.name ++ str ":O") c.2 (channelComments (x.name ++ str ":I") c.1 m)) m

/-- l5x/load_tags.go:106-150 -/
def moduleComments (ms : List L5xModule) (m : List (Str × Str)) : List (Str × Str) := ms.foldl (fun m x => connComments x m) m

/-- l5x/load_tags.go:238-246 `GetDataTypeMap`: the last type with a name. -/
def typeNamed (types : List L5xType) (n : Str) : Option L5xType := types.reverse.find? fun t => t.name = n

/-- The letters and the underscore of l5x/load_tags.go:277. -/
def isTrimmed (b : Byte) : Bool :=
  (decide (0x61 ≤ b.toNat) && decide (b.toNat ≤ 0x7A)) || (decide (0x41 ≤ b.toNat) && decide (b.toNat ≤ 0x5A)) || b == 0x5F#8

/-- l5x/load_tags.go:274-305: the name of a BIT member with its position; `none` if the member is skipped.  Slicing a
target of less than two characters panics. -/
def bitName (x : L5xTypeMember) : Res (Option Str) :=
  if x.target.length < 2 then .panic
  else
    match atoi ((x.target.drop (x.target.length - 2)).dropWhile isTrimmed) with
    | .ok n =>
      let pos := x.bit + n
      let pos :=
        if n = 9 then pos - 1
        else if n = 18 then pos - 2
        else if n = 27 then pos - 3
        else if n = 36 then pos - 4
        else if n = 45 then pos - 5
        else if n = 54 then pos - 6
        else if n = 63 then pos - 7
        else pos
      .ok (some (x.name ++ str "<" ++ decInt pos ++ str ">"))
    | _ => .ok none

/-- l5x/load_tags.go:256-262: the description of a member after that of the type. -/
def memberDesc (typeDesc : Str) : Option Str → Str
  | none => typeDesc
  | some d => if typeDesc ≠ [] then typeDesc ++ str " " ++ parseCData d else parseCData d

/-- l5x/load_tags.go:308-315, 162-164: a text after another. -/
def textAfter (a b : Str) : Str := if a ≠ [] then a ++ str " " ++ b else b

/-- The name a member is filed under, `none` if it is skipped. -/
def memberKey (x : L5xTypeMember) : Res (Option Str) := if x.typ = str "BIT" then bitName x else .ok (some x.name)

/-- l5x/load_tags.go:266-316: the loop over the members; `sub` is the recursive call.  The map of a member's type is visited
in the order of the list here; its names are distinct, so any order gives the same map. -/
def memberComments (sub : Str → Option (Res (List (Str × Str)))) (desc : Str) :
    List L5xTypeMember → List (Str × Str) → Option (Res (List (Str × Str)))
  | [], m => some (.ok m)
  | x :: xs, m =>
    match sub x.typ with
    | none => none
    | some (.err e) => some (.err e)
    | some .panic => some .panic
    | some (.ok subs) =>
      match memberKey x with
      | .err e => some (.err e)
      | .panic => some .panic
      | .ok none => memberComments sub desc xs m
      | .ok (some key) =>
        memberComments sub desc xs (subs.foldl (fun m e =>
          mapPut m (x.name ++ str "." ++ e.1) (textAfter (memberDesc desc x.desc) e.2))
          (mapPut m key (memberDesc desc x.desc)))

/-- l5x/load_tags.go:254-257: the description of a type. -/
def descText : Option Str → Str
  | some d => parseCData d
  | none => []

/-- l5x/load_tags.go:248-318 `GetTypeComments`.  The recursion of the code has no bound; `none` stands for one deeper than
the first argument.  A type without members panics (line 263). -/
def typeComments (types : List L5xType) : Nat → Str → Option (Res (List (Str × Str)))
  | 0, _ => none
  | f + 1, n =>
    match typeNamed types n with
    | none => some (.ok [])
    | some t =>
      match t.members with
      | none => some .panic
      | some ms => memberComments (typeComments types f) (descText t.desc) ms [(n, descText t.desc)]

/-- l5x/load_tags.go:154-159: the description of a tag with data. -/
def tagDesc (t : L5xCTag) : Option Str :=
  if t.hasData then t.descs.head?.map parseCData else none

/-- l5x/load_tags.go:158 -/
def putDesc (t : L5xCTag) (m : List (Str × Str)) : List (Str × Str) :=
  match tagDesc t with
  | some d => mapPut m t.name d
  | none => m

/-- l5x/load_tags.go:152-170: the tags of the controller.  (The map of a type is visited in the order of the list.) -/
def tagComments (types : List L5xType) (fuel : Nat) :
    List L5xCTag → List (Str × Str) → Option (Res (List (Str × Str)))
  | [], m => some (.ok m)
  | t :: ts, m =>
    match typeComments types fuel t.typ with
    | none => none
    | some (.err e) => some (.err e)
    | some .panic => some .panic
    | some (.ok cs) =>
      tagComments types fuel ts (cs.foldl (fun m e => if e.2 = [] then m else
        mapPut m (t.name ++ str "." ++ e.1) (textAfter ((tagDesc t).getD []) e.2)) (putDesc t m))

/-- l5x/load_tags.go:100-192 `LoadTagComments`.  What lines 172-190 collect of the programs is not returned. -/
def loadTagComments (fuel : Nat) (p : L5xProject) : Option (Res (List (Str × Str))) :=
  tagComments p.types fuel p.tags (moduleComments p.modules [])

/-- l5x/load_tags.go:197-206 -/
def taskLookup (tasks : List (Str × List Str)) : List (Str × Str) :=
  tasks.foldl (fun m t => t.2.foldl (fun m p => mapPut m p t.1) m) []

/-- l5x/load_tags.go:219 -/
def rungKey (task program routine number : Str) : Str :=
  task ++ str "/" ++ program ++ str "/" ++ routine ++ str "[" ++ number ++ str "]"

/-- l5x/load_tags.go:212-222: the comments of one rung. -/
def rungComments (key : Str) (cs : List Str) (m : List (Str × Str)) : List (Str × Str) :=
  cs.foldl (fun m c => if parseCData c = [] then m else mapPut m key (parseCData c)) m

/-- l5x/load_tags.go:210-224: the comments of a routine. -/
def routineComments (task program : Str) (r : L5xRoutine) (m : List (Str × Str)) : List (Str × Str) :=
  r.rungs.foldl (fun m x => rungComments (rungKey task program r.name x.number) x.comments m) m

/-- l5x/load_tags.go:209-226: the comments of a program. -/
def programComments (task : Str) (g : L5xCProgram) (m : List (Str × Str)) : List (Str × Str) :=
  g.routines.foldl (fun m r => routineComments task g.name r m) m

/-- l5x/load_tags.go:194-228 `LoadRungComments` -/
def loadRungComments (p : L5xProject) : List (Str × Str) :=
  p.programs.foldl (fun m g => programComments (((taskLookup p.tasks).lookup g.name).getD []) g m) []

end Gologix
