import Verif.Model.ServerIo
/-
Output messages over time: server.go:142-200 and the providers of server_io.go and server_iochannel.go.
-/
namespace Gologix.ServerIo
open Gologix.Server

/-- server.go:143-199, one turn of the loop: the endpoint the datagram is for is given it.  The number of the message, the
run/idle header and the sender (line 158) are not looked at; errors are logged only. -/
def udpServe {tin tout : Nat → Ty} (conns : ConnTable) (router : Router Nat) (provs : (e : Nat) → Provider (tin e) (tout e))
    (dg : Bytes) : (e : Nat) → Provider (tin e) (tout e) :=
  match udpTarget conns router dg with
  | .ok (e, items) => fun i => if i = e then ((provs i).ioWrite items).1 else provs i
  | _ => provs

/-- The loop: every datagram, with the connections open when it arrives. -/
def udpRun {tin tout : Nat → Ty} (router : Router Nat) (provs : (e : Nat) → Provider (tin e) (tout e))
    (dgs : List (ConnTable × Bytes)) : (e : Nat) → Provider (tin e) (tout e) :=
  dgs.foldl (fun p d => udpServe d.1 router p d.2) provs

/-- server_iochannel.go:20-24 `IOChannelProvider`; of each channel, what was received from it. -/
structure ChanProv (tin tout : Ty) where
  inp   : tin.Val
  chans : List (List tout.Val)

/-- server_iochannel.go:27-37 `IORead`. -/
def ChanProv.ioRead {tin tout : Ty} (p : ChanProv tin tout) : Bytes := (pack tin p.inp).1

/-- server_iochannel.go:102-106 `SetInputData`. -/
def ChanProv.setInput {tin tout : Ty} (p : ChanProv tin tout) (v : tin.Val) : ChanProv tin tout := { p with inp := v }

/-- server_iochannel.go:94-98 `GetOutputDataChannel`. -/
def ChanProv.open {tin tout : Ty} (p : ChanProv tin tout) : ChanProv tin tout := { p with chans := p.chans ++ [[]] }

/-- server_iochannel.go:39-76 `IOWrite`, with what is received from the channels; `ready i` says whether somebody waits at
channel `i` at that moment. -/
def ChanProv.ioWrite {tin tout : Ty} (p : ChanProv tin tout) (ready : Nat → Bool) (items : List Item) : ChanProv tin tout :=
  match chanWrite tout ((List.range p.chans.length).map ready) items with
  | .ok (got, _) => { p with chans := List.zipWith (fun c g => c ++ g.toList) p.chans got }
  | _ => p

/-- What happens to a channel provider. -/
inductive ChanEv (tin : Ty) where
  | set (v : tin.Val)
  | chan
  | recv (ready : Nat → Bool) (items : List Item)

def ChanProv.step {tin tout : Ty} (p : ChanProv tin tout) : ChanEv tin → ChanProv tin tout
  | .set v => p.setInput v
  | .chan => p.open
  | .recv ready items => p.ioWrite ready items

def ChanProv.run {tin tout : Ty} (p : ChanProv tin tout) (evs : List (ChanEv tin)) : ChanProv tin tout :=
  evs.foldl ChanProv.step p

end Gologix.ServerIo
