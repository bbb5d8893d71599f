import Verif.Model.Write
import Verif.Model.Multi
import Verif.Model.Segments
import Verif.Model.DataTable
import Verif.Model.FaultTable
/-
Controller properties, forces and faults: getattr.go:165-316, connect.go:206-262, canned/forces.go, canned/faults.go.
-/
namespace Gologix

/-- getattr.go:244-275 `GetAttrList`: the data of item 1 of the request. -/
def attrListRequest (seq : BitVec 16) (c : BitVec 16) (i : BitVec 32) (attrs : List (BitVec 16)) : Bytes :=
  let path := serializeSegs [.cls c, .inst i]
  putBV seq ++ [0x03#8, pathLengthOf path] ++ path ++ le 2 attrs.length ++ (attrs.map putBV).flatten

/-- getattr.go:167-187 `msgGetControllerPropList`. -/
structure PropList where
  id1 : Nat
  st1 : Nat
  v1  : Nat
  id2 : Nat
  st2 : Nat
  v2  : Nat
  id3 : Nat
  st3 : Nat
  v3  : Nat
  id4 : Nat
  st4 : Nat
  v4  : Nat
  id5 : Nat
  st5 : Nat
  v5  : Nat
deriving DecidableEq, Repr

/-- The field of `w` bytes at offset `o`. -/
def fieldAt (b : Bytes) (o w : Nat) : Nat := unle ((b.drop o).take w)

/-- `binary.Read` of the structure (getattr.go:219). -/
def readPropList (d : Bytes) : Res PropList := do
  let (b, _) ← readN 36 d
  .ok { id1 := fieldAt b 0 2, st1 := fieldAt b 2 2, v1 := fieldAt b 4 2,
        id2 := fieldAt b 6 2, st2 := fieldAt b 8 2, v2 := fieldAt b 10 2,
        id3 := fieldAt b 12 2, st3 := fieldAt b 14 2, v3 := fieldAt b 16 4,
        id4 := fieldAt b 20 2, st4 := fieldAt b 22 2, v4 := fieldAt b 24 4,
        id5 := fieldAt b 28 2, st5 := fieldAt b 30 2, v5 := fieldAt b 32 4 }

/-- getattr.go:189-206 `Match`. -/
def PropList.matches (old new : PropList) : Bool :=
  if new.v1 ≠ old.v1 ∨ new.st1 ≠ old.st1 then false
  else if new.v2 ≠ old.v2 ∨ new.st2 ≠ old.st2 then false
  else if new.v3 ≠ old.v3 ∨ new.st3 ≠ old.st3 then false
  else if new.v4 ≠ old.v4 ∨ new.st4 ≠ old.st4 then false
  else if new.v5 ≠ old.v5 ∨ new.st5 ≠ old.st5 then false
  else true

/-- getattr.go:213, the request of `GetControllerPropList`. -/
def propListRequest (seq : BitVec 16) : Bytes := attrListRequest seq 0xAC 1 [1, 2, 3, 4, 10]

/-- getattr.go:213-225, the reply of `GetControllerPropList`. -/
def controllerProps (r : Reply) : Res PropList := do
  let d ← getAttrListReply r
  readPropList d

/-- How the watching of connect.go:227-268 stands. -/
inductive Watch where
  /-- The attributes last seen and the number of times the tags were listed. -/
  | on (last : Bytes) (lists : Nat)
  /-- The keep-alive has returned. -/
  | off (lists : Nat)
deriving DecidableEq, Repr

/-- connect.go:206-224, the beginning of the keep-alive; `poll` is `KeepAlivePollTags`, `listed` whether `ListAllTags`
works. -/
def watchStart (poll : Bool) (r : Reply) (listed : Bool) : Watch :=
  match getAttrListReply r with
  | .ok d => if poll then if listed then .on d 1 else .off 1 else .on d 0
  | _ => .off 0

/-- connect.go:229-263, one tick on a connected client. -/
def watchTick (poll : Bool) (w : Watch) (r : Reply) (listed : Bool) : Watch :=
  match w with
  | .off n => .off n
  | .on last n =>
    match getAttrListReply r with
    | .ok d =>
      if d ≠ last then
        if poll then if listed then .on d (n + 1) else .off (n + 1) else .on d n
      else .on last n
    | _ => .off n

/-- The ticks of a keep-alive one after the other. -/
def watchTicks (poll : Bool) (w : Watch) (rs : List (Reply × Bool)) : Watch :=
  rs.foldl (fun w x => watchTick poll w x.1 x.2) w

/-- canned/forces.go:19. -/
def forcesRequest (seq : BitVec 16) : Bytes := attrListRequest seq 0x69 0 [9]

/-- canned/forces.go:19-39 `GetForces`.  The status of the attribute is not looked at. -/
def getForces (r : Reply) : Res (BitVec 16) := do
  let d ← getAttrListReply r
  let (b, _) ← readN 6 d
  .ok (BitVec.ofNat 16 (fieldAt b 4 2))

/-- canned/forces.go:11-13 `Enabled`. -/
def forcesEnabled (f : BitVec 16) : Bool := f &&& 1 ≠ 0

/-- canned/forces.go:14-16 `Exist`: the same bit. -/
def forcesExist (f : BitVec 16) : Bool := f &&& 1 ≠ 0

/-- canned/faults.go:11-16 `FaultEvent`. -/
structure FaultEvent where
  time   : BitVec 64
  cls    : BitVec 16
  code   : BitVec 16
  detail : Bytes
deriving DecidableEq, Repr

/-- canned/faults.go:52-58 `FaultSummary`. -/
structure FaultSummary where
  major      : BitVec 32
  minor      : BitVec 32
  majorCount : BitVec 16
  minorCount : BitVec 16
  events     : List FaultEvent
deriving DecidableEq, Repr

/-- The event of 42 bytes at offset `o`. -/
def eventAt (b : Bytes) (o : Nat) : FaultEvent :=
  { time := BitVec.ofNat 64 (fieldAt b o 8), cls := BitVec.ofNat 16 (fieldAt b (o + 8) 2),
    code := BitVec.ofNat 16 (fieldAt b (o + 10) 2), detail := (b.drop (o + 12)).take 30 }

/-- `binary.Read` of the structure (canned/faults.go:174). -/
def readFaultSummary (d : Bytes) : Res FaultSummary := do
  let (b, _) ← readN 138 d
  .ok { major := BitVec.ofNat 32 (fieldAt b 0 4), minor := BitVec.ofNat 32 (fieldAt b 4 4),
        majorCount := BitVec.ofNat 16 (fieldAt b 8 2), minorCount := BitVec.ofNat 16 (fieldAt b 10 2),
        events := [eventAt b 12, eventAt b 54, eventAt b 96] }

/-- canned/faults.go:162-163. -/
def faultsRequest (seq : BitVec 16) : Bytes := genericRequest seq 0x01#8 (serializeSegs [.cls 0x73, .inst 1]) []

/-- canned/faults.go:163-179 `GetFaults`. -/
def getFaults (r : Reply) : Res FaultSummary := do
  let d ← genericReply 0x01#8 r
  readFaultSummary d

/-- The methods of canned/faults.go:85-159. -/
inductive FaultKind where
  | powerup | io | program | watchdog | nvMemory | modeChange | serialPort | energyStorage | motion | redundancy | rtc
  | nonRecoverable | communication | diagnostics | cipMotion | ethernet | license | alarm | opcua
deriving DecidableEq, Repr

/-- The constants of canned/faults.go:60-83, `1 << iota` with two left out. -/
def FaultKind.flag : FaultKind → BitVec 32
  | .powerup => 1#32 <<< 1
  | .io => 1#32 <<< 2
  | .program => 1#32 <<< 3
  | .watchdog => 1#32 <<< 5
  | .nvMemory => 1#32 <<< 6
  | .modeChange => 1#32 <<< 7
  | .serialPort => 1#32 <<< 8
  | .energyStorage => 1#32 <<< 9
  | .motion => 1#32 <<< 10
  | .redundancy => 1#32 <<< 11
  | .rtc => 1#32 <<< 12
  | .nonRecoverable => 1#32 <<< 13
  | .communication => 1#32 <<< 15
  | .diagnostics => 1#32 <<< 16
  | .cipMotion => 1#32 <<< 17
  | .ethernet => 1#32 <<< 18
  | .license => 1#32 <<< 19
  | .alarm => 1#32 <<< 20
  | .opcua => 1#32 <<< 21

/-- `f & flag != 0` of each of the methods. -/
def hasFault (f : BitVec 32) (k : FaultKind) : Bool := f &&& k.flag ≠ 0

/-- What is said about an event: the entry of the table, or that it is unknown. -/
inductive FaultText where
  | known (r : FaultRow)
  | unknown (cls code : Nat)
deriving DecidableEq, Repr

/-- canned/faults.go:18-44 `Description`, without the texts: the entry of the table, or one that says unknown with the
class and the code of the event. -/
def FaultEvent.description (e : FaultEvent) : FaultText :=
  match faultTable.find? fun r => r.key1 = e.cls.toNat ∧ r.key2 = e.code.toNat with
  | some r => .known r
  | none => .unknown e.cls.toNat e.code.toNat

/-- canned/faults.go:45-50 `String`: "No Fault" (`none`), or the display. -/
def FaultEvent.shown (e : FaultEvent) : Option FaultText :=
  if e.cls = 0 ∧ e.code = 0 then none else some e.description

end Gologix
