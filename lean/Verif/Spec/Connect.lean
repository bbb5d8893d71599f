import Verif.Spec.ServerConn
/-
The requests that open and close a client's connection (CIP volume 1, chapter 3: the connection manager).
-/
namespace Gologix.Connect.Spec
open Gologix Gologix.Server.Spec

/-- Network parameters of a connection that is exclusive (bit 31, or 15 in the short form, clear), point to point
(type 2 at bit 29, or 13), of low priority (0 at bit 26, or 10), of variable size (bit 25, or 9), and takes
messages of up to `size` bytes (the low 16 bits, or 9). -/
def netParams (large : Bool) (size : Nat) : Bytes :=
  if large then le 4 (size + 2 ^ 25 + 2 * 2 ^ 29) else le 2 (size + 2 ^ 9 + 2 * 2 ^ 13)

/-- The connection path: the route to the controller and there the message router, class 2 instance 1. -/
def target (route : Bytes) : Bytes := route ++ [0x20#8, 0x02#8, 0x24#8, 0x01#8]

/-- `o` asks for a connection over `route` for messages of up to `size` bytes, to be used by class 3 transport
(0xA3: server, application triggered), from the originator with these numbers, to the connection manager (class 6
instance 1). -/
structure OpensTo (o : OpenReq) (route : Bytes) (size : Nat) (vendor : BitVec 16) (oserial rpi : BitVec 32) :
    Prop where
  manager : o.head.take 5 = [0x02#8, 0x20#8, 0x06#8, 0x24#8, 0x01#8]
  vendor  : o.vendor = vendor
  oserial : o.oserial = oserial
  otrpi   : o.otrpi = rpi
  torpi   : o.torpi = rpi
  otpar   : o.otpar = netParams o.large size
  topar   : o.topar = netParams o.large size
  fits    : size < (if o.large then 2 ^ 16 else 2 ^ 9)
  trigger : o.trigger = 0xA3#8
  path    : o.path = target route
  more    : o.more = []

/-- `q` asks for the connection with the serial number to be closed, over `route`: the connection path is
preceded by its length in words and a reserved byte. -/
structure ClosesTo (q : CloseReq) (route : Bytes) (serial vendor : BitVec 16) (oserial : BitVec 32) : Prop where
  manager : q.head.take 5 = [0x02#8, 0x20#8, 0x06#8, 0x24#8, 0x01#8]
  serial  : q.serial = serial
  ids     : q.ids = le 2 vendor.toNat ++ le 4 oserial.toNat
  words   : 2 * q.words.toNat = (target route).length
  more    : q.more = 0#8 :: target route

/-- A route of whole words that leaves room for the message router in the 127 words the server can read. -/
def Routable (route : Bytes) : Prop := route.length % 2 = 0 ∧ route.length ≤ 250

instance (r : Bytes) : Decidable (Routable r) := by unfold Routable; infer_instance

/-- The size asked for: the configured one, or the default of the form when it is 0; a standard request cannot ask
for more than 511. -/
def asked (large : Bool) (size : Nat) : Nat :=
  if size = 0 then (if large then 4000 else 511) else if large then size else min size 511

/-- The size the client wants; 0 stands for the default. -/
def wanted (size : Nat) : Nat := if size = 0 then 4000 else size

end Gologix.Connect.Spec
