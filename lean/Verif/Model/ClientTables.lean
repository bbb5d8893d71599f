import Verif.Spec.Shared
/-
The tables of a client: ioi.go:106-224 `newIOI`, client.go:239-258 `firmware`, datatable.go:96-104, listalltags.go:115-330,
listsubtags.go, listmembers.go:154-282, listallprograms.go:55.  Only the locks they take and the tables they use are modelled;
what is in the tables is not.  A listing is taken to be answered to its end; one that fails stops before a request or after it,
where it holds no lock.
-/
namespace Gologix.ClientTables

open Spec.Shared

/-- client.go: `ioi_cache_lock` and `mutex`, which protects the connection. -/
inductive Lock where
  | cache
  | conn
deriving DecidableEq, Repr

/-- client.go:81-107: the tables, and the version of the firmware. -/
inductive Table where
  | knownTags
  | knownTypes
  | knownTypesByID
  | knownPrograms
  | ioiCache
  | firmware
deriving DecidableEq, Repr

abbrev Ops := List (Op Lock Table)

/-- sendreceive.go:79-107 `send_recv_data` that gets a reply. -/
def exchange : Ops := [.lock .conn, .unlock .conn]

/-- `send_recv_data` with an error.  The Disconnect that it calls then takes and releases the same lock `n` times more: in
`startDisconnect`, for its own request, which can fail too, and in the deferred function (disconnect.go:8-27, 62-66, 118). -/
def exchangeFailed (n : Nat) : Ops := exchange ++ (List.range n).flatMap fun _ => exchange

/-- How the version of the firmware is found (client.go:239-258). -/
inductive Firmware where
  | known
  | asked    -- the controller tells it
  | failed (n : Nat)   -- it does not; `n` as in `exchangeFailed`
deriving DecidableEq, Repr

def Firmware.ops : Firmware → Ops
  | .known => [.use .firmware false]
  | .asked => [.use .firmware false] ++ exchange ++ [.use .firmware true]
  | .failed n => [.use .firmware false] ++ exchangeFailed n

/-- How a path is found: among the listed tags, among the paths made before, by making it, or not at all. -/
inductive Found where
  | listed
  | cached
  | made
  | refused
deriving DecidableEq, Repr

/-- ioi.go:107-224 `newIOI`; `new` says that the version of the firmware is above 20.  The lock is released by a deferred
call, on every way out. -/
def pathOps (f : Firmware) (new : Bool) (r : Found) : Ops :=
  [.lock .cache, .use .ioiCache false] ++ f.ops ++
  (if new then [.use .knownTags false] else []) ++
  (match r with
    | .listed => []
    | .cached => [.use .ioiCache false]
    | .made => [.use .ioiCache false, .use .ioiCache true]
    | .refused => [.use .ioiCache false]) ++
  [.unlock .cache]

/-- listmembers.go:154-282 `ListMembers`: found among the types, not told by the controller, or told, with types in it. -/
inductive Template where
  | known
  | failed (n : Nat)
  | told (inner : List Template)

mutual
def Template.ops : Template → Ops
  | .known => [.use .knownTypesByID false]
  | .failed n => .use .knownTypesByID false :: exchangeFailed n
  | .told inner => .use .knownTypesByID false :: (exchange ++ exchange ++ templates inner ++ [.use .knownTypesByID true])
def templates : List Template → Ops
  | [] => []
  | t :: ts => t.ops ++ templates ts
end

/-- listsubtags.go: the tags of a program, with one request for each page. -/
def subTagsOps (pages : List Nat) : Ops := pages.flatMap fun n => exchange ++ List.replicate n (.use .knownTags true)

/-- listalltags.go:289-312: a tag, of a structure, whose members are found or not, or of none. -/
def tagOps : Option (Template × Bool) → Ops
  | none => [.use .knownTags true]
  | some (t, ok) => t.ops ++ (if ok then [.use .knownTypes true] else []) ++ [.use .knownTags true]

/-- An entry of the list of tags (listalltags.go:264-312): one that is passed over, a program, when programs are taken from
this list (it is kept as a tag too), and a tag. -/
inductive Entry where
  | passed
  | program (pages : List Nat) (t : Option (Template × Bool))
  | tag (t : Option (Template × Bool))

def Entry.ops : Entry → Ops
  | .passed => []
  | .program pages t => .use .knownPrograms true :: (subTagsOps pages ++ tagOps t)
  | .tag t => tagOps t

/-- listalltags.go:115-330 `ListAllTags` from the start: the programs (listallprograms.go:55 replaces the table), the tags of each, then
one request for each page of tags. -/
def listingOps (programs : List (List Nat)) (pages : List (List Entry)) : Ops :=
  exchange ++ [.use .knownPrograms true, .use .knownPrograms false] ++ programs.flatMap subTagsOps ++
    pages.flatMap fun es => exchange ++ es.flatMap Entry.ops

/-- What a goroutine does with a client: paths and requests are all that `Read`, `Write`, `ReadList`, `ReadMap`, `ReadMulti`,
`WriteMap` and data table buffers do with the tables, but for the sizes of structures in buffers (datatable.go:96-104). -/
inductive Act where
  | path (f : Firmware) (new : Bool) (r : Found)
  | request (n : Nat)   -- with an error, and a Disconnect, if `n` is not 0
  | size
  | listing (programs : List (List Nat)) (pages : List (List Entry))
  | members (t : Template)

def Act.ops : Act → Ops
  | .path f new r => pathOps f new r
  | .request n => exchangeFailed n
  | .size => [.use .knownTags false]
  | .listing programs pages => listingOps programs pages
  | .members t => t.ops

/-- One after the other. -/
def program (acts : List Act) : Ops := acts.flatMap Act.ops

end Gologix.ClientTables
