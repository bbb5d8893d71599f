import Verif.Model.Members
/-
The size of a structure: listmembers.go:293-305 `UDTDescriptor.Size`.
-/
namespace Gologix

/-- listmembers.go:147-149 `CIPType` of a member: the low byte of the type word. -/
def MemberInfo.cipType (m : MemberInfo) : Byte := m.type.setWidth 8

/-- listmembers.go:299: where a member ends; 32-bit arithmetic. -/
def MemberInfo.stop (m : MemberInfo) : BitVec 32 := m.offset + BitVec.ofNat 32 (cipSize m.cipType)

/-- listmembers.go:297-303, the loop. -/
def sizeLoop (size : BitVec 32) : List MemberInfo → BitVec 32
  | [] => size
  | m :: ms => sizeLoop (if size.toNat < m.stop.toNat then m.stop else size) ms

/-- listmembers.go:295-305 `Size`. -/
def Udt.size (u : Udt) : Nat := (sizeLoop 0#32 (u.members.map fun m => m.2.1)).toNat

end Gologix
