import Verif.Spec.Wire
/-
What a request to the server and a reply from it look like on the wire.
-/
namespace Gologix.Server.Spec
open Gologix

/-- An encapsulated request with two items.  The length, status and options fields of the header and the
six bytes in front of the items are arbitrary. -/
structure Req where
  cmd     : BitVec 16
  length  : BitVec 16
  session : BitVec 32
  status  : BitVec 32
  context : BitVec 64
  options : BitVec 32
  pre     : Bytes
  id0     : BitVec 16
  data0   : Bytes
  id1     : BitVec 16
  data1   : Bytes

def Req.bytes (r : Req) : Bytes :=
  le 2 r.cmd.toNat ++ le 2 r.length.toNat ++ le 4 r.session.toNat ++ le 4 r.status.toNat ++
    le 8 r.context.toNat ++ le 4 r.options.toNat ++ r.pre ++
    Gologix.Spec.cpf [(r.id0, r.data0), (r.id1, r.data1)]

/-- The fields have the sizes the format gives them. -/
def Req.wf (r : Req) : Prop := r.pre.length = 6 ∧ r.data0.length < 65536 ∧ r.data1.length < 65536

instance (r : Req) : Decidable r.wf := by unfold Req.wf; infer_instance

def field (off len : Nat) (f : Bytes) : Bytes := (f.drop off).take len

def commandOf (f : Bytes) : Bytes := field 0 2 f
def sessionOf (f : Bytes) : Bytes := field 4 4 f
def contextOf (f : Bytes) : Bytes := field 12 8 f

/-- The service code of a reply: after header (24), interface handle and timeout (6), item count (2), the
address item (8 when connected, 4 when not), the header of the data item (4) and, when connected, the
sequence count (2). -/
def serviceOf (f : Bytes) : Option Byte :=
  if commandOf f = [0x70#8, 0#8] then f[46]?
  else if commandOf f = [0x6F#8, 0#8] then f[40]?
  else none

/-- Frame `f` echoes context, session and service. -/
def Echo (context : BitVec 64) (session : BitVec 32) (svc : Byte) (f : Bytes) : Prop :=
  contextOf f = le 8 context.toNat ∧ sessionOf f = le 4 session.toNat ∧
    serviceOf f = some (svc ||| 0x80#8)

end Gologix.Server.Spec

namespace Gologix.Server.Spec
open Gologix

/-! ### Requests that crash the server

Written over the bytes of the request, so that a peer's ability to send them is evident. -/

/-- A path that starts with an array index, possibly after empty names: an index into nothing. -/
def NamelessIndex (p : Bytes) : Prop :=
  ∃ k rest, p = (List.replicate k [0x91#8, 0#8]).flatten ++ rest ∧
    ((∃ i t, rest = 0x28#8 :: i :: t) ∨ (∃ a b c t, rest = 0x29#8 :: a :: b :: c :: t))

/-- `SkipPath d r`: `d` starts with tag path segments, as many as there are, and continues with `r`. -/
inductive SkipPath : Bytes → Bytes → Prop
  | done : SkipPath [] []
  | stop {t : Byte} {r : Bytes} : t ≠ 0x28#8 → t ≠ 0x29#8 → t ≠ 0x91#8 → SkipPath (t :: r) (t :: r)
  | index8 {i : Byte} {d r : Bytes} : SkipPath d r → SkipPath (0x28#8 :: i :: d) r
  | index16 {p a b : Byte} {d r : Bytes} : SkipPath d r → SkipPath (0x29#8 :: p :: a :: b :: d) r
  | name {n : Byte} {nm pad d r : Bytes} : nm.length = n.toNat → pad.length = n.toNat % 2 → SkipPath d r →
      SkipPath (0x91#8 :: n :: (nm ++ (pad ++ d))) r

/-- A read request, from the path on: index into nothing, or an element count of 0x8000 or more. -/
def HostileRead (d : Bytes) : Prop :=
  NamelessIndex d ∨ ∃ lo hi t, SkipPath d (lo :: hi :: t) ∧ 0x80 ≤ hi.toNat

/-- A write request, from the path on: index into nothing, or no elements.  The path is followed by the
type, the length of further type information, that information and the element count. -/
def HostileWrite (d : Bytes) : Prop :=
  NamelessIndex d ∨ ∃ typ n info t, info.length = BitVec.toNat (w := 8) n ∧
    SkipPath d (typ :: n :: (info ++ (0#8 :: 0#8 :: t)))

/-- A write request embedded in a multi-service request, from the path on. -/
def HostileMultiWrite (d : Bytes) : Prop :=
  NamelessIndex d ∨ ∃ typ x t, SkipPath d (typ :: x :: 0#8 :: 0#8 :: t)

/-- `off` is one of the offsets in the table of the multi-service request `data`: sequence number, service,
path length in words, path, count, table. -/
def MultiOffset (data : Bytes) (off : BitVec 16) : Prop :=
  ∃ seq svc plen path before after rest, data =
      le 2 (BitVec.toNat (w := 16) seq) ++ [svc, plen] ++ path ++
        le 2 (before.length + 1 + after.length) ++
        ((before ++ off :: after).map fun o : BitVec 16 => le 2 o.toNat).flatten ++ rest ∧
    path.length = (plen * 2#8).toNat

/-- A multi-service request with an offset that points in front of the request, or at a hostile embedded
request. -/
def HostileMulti (data : Bytes) : Prop :=
  ∃ off : BitVec 16, MultiOffset data off ∧
    (off.toInt + 8 < 0 ∨
      ∃ svc n d, data.drop (off.toInt + 8).toNat = svc :: n :: d ∧
        (((svc = 0x52#8 ∨ svc = 0x4C#8) ∧ HostileRead d) ∨
         ((svc = 0x4D#8 ∨ svc = 0x53#8) ∧ HostileMultiWrite d)))

/-- The data item of a connected request. -/
def HostileUnit (data : Bytes) : Prop :=
  ∃ s0 s1 svc d, data = s0 :: s1 :: svc :: d ∧
    ((svc = 0x4D#8 ∧ ∃ n d', d = n :: d' ∧ HostileWrite d') ∨
     ((svc = 0x52#8 ∨ svc = 0x4C#8) ∧ ∃ n d', d = n :: d' ∧ HostileRead d') ∨
     (svc = 0x0A#8 ∧ HostileMulti data))

/-- A forward open request: no connection path, one of 128 words (whose byte count overflows to 0), or, in a
standard one, a cyclic connection with an interval of zero. -/
def HostileOpen (large : Bool) (d : Bytes) : Prop :=
  if large then 46 ≤ d.length ∧ (d[45]? = some 0#8 ∨ d[45]? = some 0x80#8)
  else 42 ≤ d.length ∧ (d[41]? = some 0#8 ∨ d[41]? = some 0x80#8 ∨
    (d[40]? = some 1#8 ∧ (d.drop 34).take 4 = [0#8, 0#8, 0#8, 0#8]))

/-- The data item of an unconnected request. -/
def HostileUnconnected (data : Bytes) : Prop :=
  ∃ svc d, data = svc :: d ∧
    ((svc = 0x54#8 ∧ HostileOpen false data) ∨ (svc = 0x5B#8 ∧ HostileOpen true data) ∨
     (svc = 0x52#8 ∧ ∃ plen path four esvc n d', d = plen :: (path ++ (four ++ (esvc :: n :: d'))) ∧
        path.length = (plen * 2#8).toNat ∧ four.length = 4 ∧
        ((esvc = 0x4D#8 ∧ HostileWrite d') ∨ (esvc = 0x4C#8 ∧ HostileRead d'))))

/-- A request that can crash the server. -/
def Hostile (r : Req) : Prop :=
  (r.cmd = 0x70#16 ∧ HostileUnit r.data1) ∨
  (r.cmd = 0x6F#16 ∧ r.id1 = 0xB2#16 ∧ HostileUnconnected r.data1) ∨
  (r.cmd = 0x6F#16 ∧ r.id1 = 0xB1#16 ∧ ∃ a b c e d, r.data1 = a :: b :: c :: e :: d ∧ HostileRead d)

end Gologix.Server.Spec

namespace Gologix.Server.Spec
open Gologix

/-! ### Further fields of a reply -/

/-- The length field counts the bytes after the header. -/
def Framed (f : Bytes) : Prop := 24 ≤ f.length ∧ field 2 2 f = le 2 (f.length - 24)

/-- The connection a connected reply is for. -/
def connOf (f : Bytes) : Bytes := field 36 4 f

/-- The sequence count of a connected reply. -/
def seqOf (f : Bytes) : Bytes := field 44 2 f

/-- The general status of a connected reply. -/
def statusOf (f : Bytes) : Option Byte := f[48]?

/-- What follows the status of a connected reply. -/
def answerOf (f : Bytes) : Bytes := f.drop 50

end Gologix.Server.Spec
