import Verif.Base.Bytes
/-
Logical path segments: cip_definitions.go.
-/
namespace Gologix

/-- cip_definitions.go:34-47 `CIPAttribute.Bytes`. -/
def attributeBytes (p : BitVec 16) : Bytes :=
  if p.toNat < 256 then [0x30, BitVec.ofNat 8 p.toNat]
  else [0x31, 0] ++ putBV p

/-- cip_definitions.go:77-82 `CIPAttribute.Len`. -/
def attributeLen (p : BitVec 16) : Nat := if p.toNat < 256 then 2 else 4

/-- cip_definitions.go:48-76 `CIPAttribute.Read`. -/
def attributeRead (r : Bytes) : Res (BitVec 16 × Bytes) := do
  let (size, r) ← readBV 8 r
  if size = 0x30 then
    let (v, r) ← readBV 8 r
    .ok (BitVec.ofNat 16 v.toNat, r)
  else if size = 0x31 then
    let (_, r) ← readN 1 r
    readBV 16 r
  else .err .fail

/-- cip_definitions.go:100-119 `CIPElement.Bytes`.  Line 115 puts the 16-bit marker 0x29 in front of a
32-bit element number. -/
def elementBytes (p : BitVec 32) : Bytes :=
  if p.toNat < 256 then [0x28, BitVec.ofNat 8 p.toNat]
  else if p.toNat < 65536 then [0x29, 0] ++ putBV (BitVec.ofNat 16 p.toNat)
  else [0x29, 0] ++ putBV p

/-- cip_definitions.go:121-128 `CIPElement.Len`.  The comparison of line 124 is with 65535. -/
def elementLen (p : BitVec 32) : Nat :=
  if p.toNat < 256 then 2 else if p.toNat < 65535 then 4 else 6

/-- cip_definitions.go:144-161 `CIPInstance.Bytes`. -/
def instanceBytes (p : BitVec 32) : Bytes :=
  if p.toNat < 256 then [0x24, BitVec.ofNat 8 p.toNat]
  else if p.toNat ≤ 0xFFFF then [0x25, 0] ++ putBV (BitVec.ofNat 16 p.toNat)
  else [0x26, 0] ++ putBV p

/-- cip_definitions.go:204-211 `CIPInstance.Len`. -/
def instanceLen (p : BitVec 32) : Nat :=
  if p.toNat < 256 then 2 else if p.toNat ≤ 0xFFFF then 4 else 6

/-- cip_definitions.go:163-203 `CIPInstance.Read`. -/
def instanceRead (r : Bytes) : Res (BitVec 32 × Bytes) := do
  let (size, r) ← readBV 8 r
  if size = 0x24 then
    let (v, r) ← readBV 8 r
    .ok (BitVec.ofNat 32 v.toNat, r)
  else if size = 0x25 then
    let (_, r) ← readN 1 r
    let (v, r) ← readBV 16 r
    .ok (BitVec.ofNat 32 v.toNat, r)
  else if size = 0x26 then
    let (_, r) ← readN 1 r
    readBV 32 r
  else .err .fail

/-- cip_definitions.go:231-244 `CIPClass.Bytes`. -/
def classBytes (p : BitVec 16) : Bytes :=
  if p.toNat < 256 then [0x20, BitVec.ofNat 8 p.toNat]
  else [0x21, 0] ++ putBV p

/-- cip_definitions.go:276-281 `CIPClass.Len`. -/
def classLen (p : BitVec 16) : Nat := if p.toNat < 256 then 2 else 4

/-- cip_definitions.go:246-274 `CIPClass.Read`. -/
def classRead (r : Bytes) : Res (BitVec 16 × Bytes) := do
  let (size, r) ← readBV 8 r
  if size = 0x20 then
    let (v, r) ← readBV 8 r
    .ok (BitVec.ofNat 16 v.toNat, r)
  else if size = 0x21 then
    let (_, r) ← readN 1 r
    readBV 16 r
  else .err .fail

/-- The logical segments a request path is assembled from. -/
inductive Seg where
  | cls  (v : BitVec 16)
  | inst (v : BitVec 32)
  | elem (v : BitVec 32)
  | attr (v : BitVec 16)
deriving DecidableEq, Repr

/-- Dispatch of the `Serializable` interface on `Bytes()`. -/
def Seg.bytes : Seg → Bytes
  | .cls v => classBytes v
  | .inst v => instanceBytes v
  | .elem v => elementBytes v
  | .attr v => attributeBytes v

/-- Dispatch of the `Serializable` interface on `Len()`. -/
def Seg.len : Seg → Nat
  | .cls v => classLen v
  | .inst v => instanceLen v
  | .elem v => elementLen v
  | .attr v => attributeLen v

/-- pack.go:57-92 `Serialize` of a list of segments: their bytes one after the other. -/
def serializeSegs (segs : List Seg) : Bytes := segs.foldl (fun b s => b ++ s.bytes) []

/-- getattr.go:110-117 `GetAttrSingle`: path length in words from the declared segment lengths. -/
def getAttrSinglePathLength (c : BitVec 16) (i : BitVec 32) (a : BitVec 16) : Byte :=
  BitVec.ofNat 8 ((classLen c + instanceLen i + attributeLen a) / 2)

/-- getattr.go:121-132 `GetAttrSingle`: the path bytes. -/
def getAttrSinglePath (c : BitVec 16) (i : BitVec 32) (a : BitVec 16) : Bytes :=
  classBytes c ++ instanceBytes i ++ attributeBytes a

/-- getattr.go:250-258, 430, listalltags.go:157, listmembers.go:68, listsubtags.go:40, read.go:420,
write.go:128: path length in words from the bytes. -/
def pathLengthOf (path : Bytes) : Byte := BitVec.ofNat 8 (path.length / 2)

end Gologix
