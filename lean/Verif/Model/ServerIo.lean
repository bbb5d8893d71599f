import Verif.Model.Pack
import Verif.Model.Items
import Verif.Model.ServerTables
/-
Class 1 connections: server_io.go, server_iochannel.go, server.go:134-200 (receiving), 797-860 (sending).

A provider for the structure types `Tin` and `Tout` is modelled by their shapes (Model/Pack).  The locks make
each method one step.  Not modelled: the socket, the ticker, and the Go values of types that have a Pack or
Unpack method of their own.
-/
namespace Gologix.ServerIo
open Gologix.Server

/-! ### Unpacking into an existing value -/

/-- pack.go:304-322, writing to the elements of an existing array. -/
def unpackBitsInto : (n : Nat) → Rep n Bool → UnpackSt → Rep n Bool × Res UnpackSt
  | 0, _, st => ((), .ok st)
  | n + 1, old, st =>
    match st.bit with
    | .ok (b, st) => let r := unpackBitsInto n old.2 st; ((b, r.1), r.2)
    | .err e => (old, .err e)
    | .panic => (old, .panic)

/-- pack.go:324-345, writing to an existing field. -/
def unpackBitInto (old : Bool) (st : UnpackSt) : Bool × Res UnpackSt :=
  match st.bit with
  | .ok (b, st) => (b, .ok st)
  | .err e => (old, .err e)
  | .panic => (old, .panic)

/-- Lines 297-347, for the fields that are unpacked bit by bit. -/
def boolsInto : (t : Ty) → Option (t.Val → UnpackSt → t.Val × Res UnpackSt)
  | .bool => some unpackBitInto
  | .arr n .bool => some (unpackBitsInto n)
  | _ => none

/-- pack.go:287-384, writing to the fields of an existing structure: fields are assigned as they are read, and
stay as they were from the first error on.  `binary.Read` assigns nothing when it fails. -/
def unpackInto : (t : Ty) → t.Val → UnpackSt → t.Val × Res UnpackSt
  | .cons np f rest, old, st =>
    let i : f.Val × Res UnpackSt :=
      match (if np then none else boolsInto f) with
      | some g => g old.1 st
      | none =>
        match ({ st with bitpos := 0 } : UnpackSt).pad f.align with
        | .err e => (old.1, .err e)
        | .panic => (old.1, .panic)
        | .ok st =>
          if f.isStruct then
            let r := unpackInto f old.1 ⟨st.src, 0, 0, 0#8⟩
            (r.1, r.2.bind fun s => .ok { st with src := s.src, n := st.n + s.n })
          else match readN f.flat st.src with
            | .ok (b, src) => ((f.dec b).1, .ok { st with src := src, n := st.n + f.goSize })
            | .err e => (old.1, .err e)
            | .panic => (old.1, .panic)
    match i.2 with
    | .ok st => ((i.1, (unpackInto rest old.2 st).1), (unpackInto rest old.2 st).2)
    | .err e => ((i.1, old.2), .err e)
    | .panic => ((i.1, old.2), .panic)
  | .num _, old, st => (old, .ok st)
  | .bool, old, st => (old, .ok st)
  | .arr _ _, old, st => (old, .ok st)
  | .nil, old, st => (old, .ok st)

/-! ### Providers -/

/-- server_io.go:38-63, server_iochannel.go:39-64: what an output message carries.  The length of the payload
is computed in 16 bits. -/
def ioPayload (items : List Item) : Res Bytes :=
  match items with
  | [_, it] =>
    if it.id ≠ 0xB1#16 then .err .fail
    else
      let (r, it) := it.read 4
      r.bind fun _ =>
      let (r, it) := it.read 2
      r.bind fun _ => (it.read (it.length - 6#16).toNat).1
  | _ => .err .fail

/-- server_io.go:19-24 `IOProvider`. -/
structure Provider (tin tout : Ty) where
  inp : tin.Val
  out : tout.Val

/-- server_io.go:27-36 `IORead`; packing the modelled types does not fail. -/
def Provider.ioRead {tin tout : Ty} (p : Provider tin tout) : Bytes := (pack tin p.inp).1

/-- server_io.go:38-75 `IOWrite`. -/
def Provider.ioWrite {tin tout : Ty} (p : Provider tin tout) (items : List Item) : Provider tin tout × Res Unit :=
  match ioPayload items with
  | .err e => (p, .err e)
  | .panic => (p, .panic)
  | .ok b =>
    let r := unpackInto tout p.out ⟨b, 0, 0, 0#8⟩
    ({ p with out := r.1 }, r.2.bind fun _ => .ok ())

/-- server_io.go:98-102 `SetInputData`. -/
def Provider.setInput {tin tout : Ty} (p : Provider tin tout) (v : tin.Val) : Provider tin tout := { p with inp := v }

/-- server_iochannel.go:39-76 `IOWrite` of the channel provider.  The channels have no buffer: `ready` says for
each whether somebody waits to receive at that moment.  Returns what each channel receives. -/
def chanWrite (t : Ty) (ready : List Bool) (items : List Item) : Res (List (Option t.Val) × Bool) := do
  let b ← ioPayload items
  let (v, _, _) ← unpack t b
  let k := ready.findIdx (· == false)
  .ok ((List.range ready.length).map (fun i => if i < k then some v else none), k = ready.length)

/-! ### The server -/

/-- server.go:826-853: the datagram of one cycle.  `serializeItems` puts six bytes in front, which are cut. -/
def ioDatagram (to seq : BitVec 32) (dat : Bytes) : Bytes :=
  (serializeItems [(Item.new 0x8002#16).write (putBV to ++ putBV seq),
    (Item.new 0xB1#16).write (putBV (seq.setWidth 16) ++ dat)]).drop 6

/-- What happens to a connection: the application sets the inputs, an output message arrives, the ticker
fires, the connection is closed. -/
inductive Ev (tin tout : Ty) where
  | set (v : tin.Val)
  | recv (items : List Item)
  | tick
  | close

/-- State of server.go:797-860 `ioConnection`: the local `seq` of the cycle that is waiting, whether the
connection is open and the loop running, the provider, the datagrams sent. -/
structure IoSt (tin tout : Ty) where
  seq     : BitVec 32
  isOpen  : Bool
  running : Bool
  prov    : Provider tin tout
  sent    : List Bytes

/-- server.go:818-858, one event.  When the ticker fires on a closed connection the loop ends. -/
def ioStep {tin tout : Ty} (to : BitVec 32) (st : IoSt tin tout) : Ev tin tout → IoSt tin tout
  | .set v => { st with prov := st.prov.setInput v }
  | .recv items => { st with prov := (st.prov.ioWrite items).1 }
  | .close => { st with isOpen := false }
  | .tick =>
    if ¬ st.running then st
    else if ¬ st.isOpen then { st with running := false }
    else { st with sent := st.sent ++ [ioDatagram to st.seq st.prov.ioRead], seq := st.seq + 1 }

def ioRun {tin tout : Ty} (to : BitVec 32) (st : IoSt tin tout) (evs : List (Ev tin tout)) : IoSt tin tout :=
  evs.foldl (ioStep to) st

/-- The state when `ioConnection` starts: `seq` is 1 in the first cycle. -/
def IoSt.start {tin tout : Ty} (p : Provider tin tout) : IoSt tin tout := ⟨1#32, true, true, p, []⟩

/-- server.go:142-200 `serveUDP`: what is done with one datagram of less than 2^16 bytes.  It is received into
a zeroed buffer of 4096 bytes, which is parsed as a whole.  The result is the endpoint whose `IOWrite` is
called, and the items it is given; `err` means the datagram is dropped. -/
def udpTarget (conns : ConnTable) (router : Router Nat) (dg : Bytes) : Res (Nat × List Item) :=
  if dg.length = 0 ∨ 4096 ≤ dg.length then .err .fail
  else do
    let (items, _) ← readItems (dg ++ List.replicate (4096 - dg.length) 0#8)
    match items with
    | [i0, i1] =>
      if i0.id ≠ 0x8002#16 then .err .fail
      else
        let (r, i0) := i0.read 8
        r.bind fun b =>
        (conns.getByOT (BitVec.ofNat 32 (unle (b.take 4)))).bind fun c =>
        (router.resolve c.path).bind fun e => .ok (e, [i0, i1])
    | _ => .err .fail

end Gologix.ServerIo
