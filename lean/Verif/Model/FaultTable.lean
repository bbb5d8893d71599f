import Verif.Base.Bytes
/-
The table of fault descriptions, canned/fault_descriptions.go:15-1655.

Of the texts only what the display says about itself is kept: "Major" or "Minor" and the numbers behind T and C, or nothing
if the display does not begin with them.
-/
namespace Gologix

/-- An entry: the keys it is filed under, `Type`, `Code`, `Major`, and what `Display` begins with. -/
structure FaultRow where
  key1  : Nat
  key2  : Nat
  type  : Nat
  code  : Nat
  major : Bool
  shown : Option (Bool × Nat × Nat)
deriving DecidableEq, Repr

/-- canned/fault_descriptions.go:16-1655 `FaultDescriptions`. -/
def faultTable : List FaultRow := [
  ⟨1, 1, 1, 1, true, some (true, 1, 1)⟩,
  ⟨1, 2, 1, 2, false, none⟩,
  ⟨1, 15, 1, 15, false, some (false, 1, 15)⟩,
  ⟨1, 16, 1, 16, true, some (true, 1, 16)⟩,
  ⟨1, 29, 1, 29, false, some (false, 1, 29)⟩,
  ⟨1, 40, 1, 40, true, some (true, 1, 40)⟩,
  ⟨1, 60, 1, 60, true, some (true, 1, 60)⟩,
  ⟨1, 61, 1, 61, true, some (true, 1, 61)⟩,
  ⟨1, 62, 1, 62, true, some (true, 1, 62)⟩,
  ⟨3, 0, 3, 0, false, some (false, 3, 0)⟩,
  ⟨3, 1, 3, 1, false, some (false, 3, 1)⟩,
  ⟨3, 16, 3, 16, true, some (true, 3, 16)⟩,
  ⟨3, 20, 3, 20, true, some (true, 3, 20)⟩,
  ⟨3, 21, 3, 21, true, some (true, 3, 21)⟩,
  ⟨3, 23, 3, 23, true, some (true, 3, 23)⟩,
  ⟨3, 32, 3, 32, true, some (true, 3, 32)⟩,
  ⟨3, 94, 3, 94, false, some (false, 3, 94)⟩,
  ⟨3, 100, 3, 100, false, some (false, 3, 100)⟩,
  ⟨4, 4, 4, 4, false, some (false, 4, 4)⟩,
  ⟨4, 5, 4, 5, false, some (false, 4, 5)⟩,
  ⟨4, 6, 4, 6, false, some (false, 4, 6)⟩,
  ⟨4, 7, 4, 7, false, some (false, 4, 7)⟩,
  ⟨4, 16, 4, 16, true, some (true, 4, 16)⟩,
  ⟨4, 20, 4, 20, true, some (true, 4, 20)⟩,
  ⟨4, 21, 4, 21, true, some (true, 4, 21)⟩,
  ⟨4, 24, 4, 24, true, some (true, 4, 24)⟩,
  ⟨4, 30, 4, 30, false, some (false, 4, 30)⟩,
  ⟨4, 31, 4, 31, true, some (true, 4, 31)⟩,
  ⟨4, 32, 4, 32, false, some (false, 4, 32)⟩,
  ⟨4, 34, 4, 34, true, some (true, 4, 34)⟩,
  ⟨4, 35, 4, 35, false, some (false, 4, 35)⟩,
  ⟨4, 36, 4, 36, false, some (false, 4, 36)⟩,
  ⟨4, 42, 4, 42, true, some (true, 4, 42)⟩,
  ⟨4, 51, 4, 51, false, some (false, 4, 51)⟩,
  ⟨4, 52, 4, 52, false, some (false, 4, 52)⟩,
  ⟨4, 53, 4, 53, false, some (false, 4, 53)⟩,
  ⟨4, 54, 4, 54, false, some (false, 4, 54)⟩,
  ⟨4, 55, 4, 55, false, some (false, 4, 55)⟩,
  ⟨4, 56, 4, 56, false, some (false, 4, 56)⟩,
  ⟨4, 57, 4, 57, false, some (false, 4, 57)⟩,
  ⟨4, 82, 4, 82, true, some (true, 4, 82)⟩,
  ⟨4, 83, 4, 83, true, some (true, 4, 83)⟩,
  ⟨4, 84, 4, 84, true, some (true, 4, 84)⟩,
  ⟨4, 85, 4, 85, true, some (true, 4, 85)⟩,
  ⟨4, 86, 4, 86, false, some (false, 4, 86)⟩,
  ⟨4, 87, 4, 87, false, some (false, 4, 87)⟩,
  ⟨4, 88, 4, 88, false, some (false, 4, 88)⟩,
  ⟨4, 89, 4, 89, true, some (true, 4, 89)⟩,
  ⟨4, 90, 4, 90, true, some (true, 4, 90)⟩,
  ⟨4, 91, 4, 91, true, some (true, 4, 91)⟩,
  ⟨4, 94, 4, 94, true, some (true, 4, 94)⟩,
  ⟨4, 990, 4, 990, true, some (true, 4, 990)⟩,
  ⟨4, 991, 4, 991, true, some (true, 4, 991)⟩,
  ⟨4, 992, 4, 992, true, some (true, 4, 992)⟩,
  ⟨4, 993, 4, 993, true, some (true, 4, 993)⟩,
  ⟨4, 994, 4, 994, true, some (true, 4, 994)⟩,
  ⟨4, 995, 4, 995, true, some (true, 4, 995)⟩,
  ⟨4, 996, 4, 996, true, some (true, 4, 996)⟩,
  ⟨4, 997, 4, 997, true, some (true, 4, 997)⟩,
  ⟨4, 998, 4, 998, true, some (true, 4, 998)⟩,
  ⟨4, 999, 4, 999, true, some (true, 4, 999)⟩,
  ⟨6, 1, 6, 1, true, some (true, 6, 1)⟩,
  ⟨6, 2, 6, 2, false, some (false, 6, 2)⟩,
  ⟨6, 3, 6, 3, false, some (false, 6, 3)⟩,
  ⟨7, 40, 7, 40, true, some (true, 7, 40)⟩,
  ⟨7, 41, 7, 41, true, some (true, 7, 41)⟩,
  ⟨7, 42, 7, 42, true, some (true, 7, 42)⟩,
  ⟨7, 43, 7, 43, true, some (true, 7, 43)⟩,
  ⟨7, 44, 7, 44, true, some (true, 7, 44)⟩,
  ⟨7, 49, 7, 49, false, some (false, 7, 49)⟩,
  ⟨7, 50, 7, 50, true, some (true, 7, 50)⟩,
  ⟨8, 1, 8, 1, true, some (true, 8, 1)⟩,
  ⟨9, 0, 9, 0, false, some (false, 9, 0)⟩,
  ⟨9, 1, 9, 1, false, some (false, 9, 1)⟩,
  ⟨9, 2, 9, 2, false, some (false, 9, 2)⟩,
  ⟨9, 3, 9, 3, false, some (false, 9, 3)⟩,
  ⟨9, 5, 9, 5, false, some (false, 9, 5)⟩,
  ⟨9, 9, 9, 9, false, some (false, 9, 9)⟩,
  ⟨9, 10, 9, 10, false, some (false, 9, 10)⟩,
  ⟨9, 11, 9, 11, false, some (false, 9, 11)⟩,
  ⟨10, 10, 10, 10, false, some (false, 10, 10)⟩,
  ⟨10, 11, 10, 11, false, some (false, 10, 11)⟩,
  ⟨10, 12, 10, 12, false, some (false, 10, 12)⟩,
  ⟨10, 13, 10, 13, false, some (false, 10, 13)⟩,
  ⟨10, 14, 10, 14, false, some (false, 10, 14)⟩,
  ⟨10, 15, 10, 15, false, some (false, 10, 15)⟩,
  ⟨10, 16, 10, 16, false, some (false, 10, 16)⟩,
  ⟨10, 17, 10, 17, false, some (false, 10, 17)⟩,
  ⟨11, 1, 11, 1, true, some (true, 11, 1)⟩,
  ⟨11, 2, 11, 2, true, some (true, 11, 2)⟩,
  ⟨11, 3, 11, 3, true, some (true, 11, 3)⟩,
  ⟨11, 4, 11, 4, true, some (true, 11, 4)⟩,
  ⟨11, 5, 11, 5, true, some (true, 11, 5)⟩,
  ⟨11, 6, 11, 6, true, some (true, 11, 6)⟩,
  ⟨11, 7, 11, 7, true, some (true, 11, 7)⟩,
  ⟨11, 8, 11, 8, true, some (true, 11, 8)⟩,
  ⟨11, 9, 11, 9, true, some (true, 11, 9)⟩,
  ⟨11, 10, 11, 10, true, some (true, 11, 10)⟩,
  ⟨11, 11, 11, 11, true, some (true, 11, 11)⟩,
  ⟨11, 12, 11, 12, true, some (true, 11, 12)⟩,
  ⟨11, 13, 11, 13, true, some (true, 11, 13)⟩,
  ⟨11, 14, 11, 14, true, some (true, 11, 14)⟩,
  ⟨11, 15, 11, 15, true, some (true, 11, 15)⟩,
  ⟨11, 16, 11, 16, true, some (true, 11, 16)⟩,
  ⟨11, 32, 11, 32, true, some (true, 11, 32)⟩,
  ⟨11, 33, 11, 33, true, some (true, 11, 33)⟩,
  ⟨12, 32, 12, 32, true, some (true, 12, 32)⟩,
  ⟨12, 33, 12, 33, true, some (true, 12, 33)⟩,
  ⟨12, 34, 12, 34, true, some (true, 12, 34)⟩,
  ⟨13, 21, 13, 21, false, some (false, 13, 21)⟩,
  ⟨14, 1, 14, 1, true, none⟩,
  ⟨14, 2, 14, 2, true, some (true, 14, 2)⟩,
  ⟨14, 3, 14, 3, true, some (true, 14, 3)⟩,
  ⟨14, 4, 14, 4, true, some (true, 14, 4)⟩,
  ⟨14, 5, 14, 5, true, some (true, 14, 5)⟩,
  ⟨14, 6, 14, 6, true, some (true, 14, 6)⟩,
  ⟨14, 7, 14, 7, true, some (true, 14, 7)⟩,
  ⟨14, 8, 14, 8, true, some (true, 14, 8)⟩,
  ⟨14, 9, 14, 9, true, some (true, 14, 9)⟩,
  ⟨14, 10, 14, 10, true, none⟩,
  ⟨14, 11, 14, 11, true, none⟩,
  ⟨14, 12, 14, 12, false, some (false, 14, 12)⟩,
  ⟨14, 13, 14, 13, true, none⟩,
  ⟨16, 1, 16, 1, false, none⟩,
  ⟨17, 0, 17, 0, false, some (false, 17, 0)⟩,
  ⟨17, 1, 17, 1, false, some (false, 17, 1)⟩,
  ⟨17, 2, 17, 2, false, some (false, 17, 2)⟩,
  ⟨17, 3, 17, 3, false, some (false, 17, 3)⟩,
  ⟨17, 4, 17, 4, false, some (false, 17, 4)⟩,
  ⟨17, 5, 17, 5, false, some (false, 17, 5)⟩,
  ⟨17, 6, 17, 6, false, some (false, 17, 6)⟩,
  ⟨17, 7, 17, 7, false, some (false, 17, 7)⟩,
  ⟨17, 8, 17, 8, false, some (false, 17, 8)⟩,
  ⟨17, 9, 17, 9, false, some (false, 17, 9)⟩,
  ⟨17, 10, 17, 10, false, some (false, 17, 10)⟩,
  ⟨17, 11, 17, 11, false, some (false, 17, 11)⟩,
  ⟨17, 12, 17, 12, false, some (false, 17, 12)⟩,
  ⟨17, 13, 17, 13, false, some (false, 17, 13)⟩,
  ⟨17, 14, 17, 14, false, some (false, 17, 14)⟩,
  ⟨17, 15, 17, 15, false, some (false, 17, 15)⟩,
  ⟨17, 16, 17, 16, false, some (false, 17, 16)⟩,
  ⟨17, 17, 17, 17, false, some (false, 17, 17)⟩,
  ⟨17, 18, 17, 18, false, some (false, 17, 18)⟩,
  ⟨17, 19, 17, 19, false, some (false, 17, 19)⟩,
  ⟨17, 20, 17, 20, false, some (false, 17, 20)⟩,
  ⟨17, 21, 17, 21, false, some (false, 17, 21)⟩,
  ⟨17, 22, 17, 22, false, some (false, 17, 22)⟩,
  ⟨17, 23, 17, 23, false, some (false, 17, 23)⟩,
  ⟨17, 24, 17, 24, false, some (false, 17, 24)⟩,
  ⟨17, 25, 17, 25, false, some (false, 17, 25)⟩,
  ⟨17, 26, 17, 26, false, some (false, 17, 26)⟩,
  ⟨17, 27, 17, 27, false, some (false, 17, 27)⟩,
  ⟨17, 28, 17, 28, false, some (false, 17, 28)⟩,
  ⟨17, 29, 17, 29, false, some (false, 17, 29)⟩,
  ⟨17, 30, 17, 30, false, some (false, 17, 30)⟩,
  ⟨17, 31, 17, 31, false, some (false, 17, 31)⟩,
  ⟨17, 32, 17, 31, true, some (true, 17, 34)⟩,
  ⟨17, 35, 17, 35, false, some (false, 17, 35)⟩,
  ⟨17, 36, 17, 36, false, some (false, 17, 36)⟩,
  ⟨17, 37, 17, 37, true, some (true, 17, 37)⟩,
  ⟨18, 1, 18, 1, true, some (true, 18, 1)⟩,
  ⟨18, 2, 18, 2, true, some (true, 18, 2)⟩,
  ⟨18, 3, 18, 3, true, some (true, 18, 3)⟩,
  ⟨18, 4, 18, 4, true, some (true, 18, 4)⟩,
  ⟨18, 5, 18, 5, true, some (true, 18, 5)⟩,
  ⟨18, 6, 18, 6, true, some (true, 18, 6)⟩,
  ⟨18, 7, 18, 7, true, some (true, 18, 7)⟩,
  ⟨18, 8, 18, 8, true, some (true, 18, 8)⟩,
  ⟨18, 9, 18, 9, true, some (true, 18, 9)⟩,
  ⟨18, 10, 18, 10, true, some (true, 18, 10)⟩,
  ⟨19, 1, 19, 1, false, some (false, 19, 1)⟩,
  ⟨19, 2, 19, 2, false, some (false, 19, 2)⟩,
  ⟨19, 3, 19, 3, false, some (false, 19, 3)⟩,
  ⟨19, 4, 19, 4, false, some (false, 19, 4)⟩,
  ⟨20, 1, 20, 1, true, some (true, 20, 1)⟩,
  ⟨20, 2, 20, 2, false, some (false, 20, 2)⟩,
  ⟨21, 1, 21, 1, false, some (false, 21, 1)⟩,
  ⟨21, 2, 21, 2, false, some (false, 21, 2)⟩]

end Gologix
