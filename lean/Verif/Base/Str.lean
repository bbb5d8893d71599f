import Verif.Base.Bytes
/-
Go strings as byte lists and the pieces of `strings` and `strconv` the code uses.
-/
namespace Gologix

/-- A Go string, as the bytes it holds. -/
abbrev Str := Bytes

/-- ASCII string literal. -/
def str (s : String) : Str := s.toList.map fun c => BitVec.ofNat 8 c.toNat

/-- `strings.ToLower` restricted to ASCII letters.  Simplification: Go also maps non-ASCII letters;
bytes from 0x80 on are left alone here (Logix tag names are ASCII). -/
def lowerByte (b : Byte) : Byte := if 65 ≤ b.toNat ∧ b.toNat ≤ 90 then b + 32 else b

def toLower (s : Str) : Str := s.map lowerByte

def isDigit (b : Byte) : Bool := decide (48 ≤ b.toNat) && decide (b.toNat ≤ 57)

/-- Result of `strconv` parsing: value, syntax error (value 0), or range error (saturated value). -/
inductive Num where
  | ok (v : Int)
  | syntaxErr
  | rangeErr (v : Int)
deriving DecidableEq, Repr

/-- The value `strconv` returns next to the error. -/
def Num.val : Num → Int
  | .ok v => v
  | .syntaxErr => 0
  | .rangeErr v => v

def Num.isOk : Num → Bool
  | .ok _ => true
  | _ => false

/-- Loop of `strconv.ParseUint(s, 10, 64)`: stops at the first bad character (syntax) or at the first
digit that overflows 64 bits (range). `none` = syntax, `some none` = range. -/
def parseUintLoop : Nat → Bytes → Option (Option Nat)
  | acc, [] => some (some acc)
  | acc, b :: bs =>
    if isDigit b then
      let v := 10 * acc + (b.toNat - 48)
      if v < 2 ^ 64 then parseUintLoop v bs else some none
    else none

def parseUint (s : Bytes) : Option (Option Nat) := if s = [] then none else parseUintLoop 0 s

/-- Sign handling of `strconv.ParseInt`: negative flag and the text after the sign. -/
def signSplit : Str → Bool × Str
  | [] => (false, [])
  | b :: t => if b = 0x2D#8 then (true, t) else if b = 0x2B#8 then (false, t) else (false, b :: t)

/-- `strconv.ParseInt` after the sign. -/
def parseSigned (bits : Nat) (neg : Bool) (t : Str) : Num :=
  match parseUint t with
  | none => .syntaxErr
  | some u =>
    let un := u.getD (2 ^ 64 - 1)
    let cutoff := 2 ^ (bits - 1)
    if !neg ∧ cutoff ≤ un then .rangeErr (Int.ofNat cutoff - 1)
    else if neg ∧ cutoff < un then .rangeErr (-Int.ofNat cutoff)
    else .ok (if neg then -Int.ofNat un else Int.ofNat un)

/-- `strconv.ParseInt(s, 10, bits)`; `strconv.Atoi` is the case `bits = 64`. -/
def parseInt (bits : Nat) (s : Str) : Num := parseSigned bits (signSplit s).1 (signSplit s).2

/-- `strconv.Atoi` on a 64-bit platform. -/
def atoi (s : Str) : Num := parseInt 64 s

/-- `%d` of a natural number; `fuel` is only there for structural recursion. -/
def decAux : Nat → Nat → Str
  | 0, _ => []
  | f + 1, n => if n < 10 then [BitVec.ofNat 8 (48 + n)] else decAux f (n / 10) ++ [BitVec.ofNat 8 (48 + n % 10)]

def dec (n : Nat) : Str := decAux (n + 1) n

/-- `strings.Split(s, sep)` for a one-byte separator. -/
def splitOn (sep : Byte) : Str → List Str
  | [] => [[]]
  | b :: bs =>
    if b = sep then [] :: splitOn sep bs
    else match splitOn sep bs with
      | [] => [[b]]
      | p :: ps => (b :: p) :: ps

/-- Inverse: join with a separator. -/
def joinWith (sep : Byte) : List Str → Str
  | [] => []
  | [p] => p
  | p :: q :: ps => p ++ sep :: joinWith sep (q :: ps)

/-- `strings.Index(s, c)` for a one-byte `c`; `none` is −1. -/
def indexOf (c : Byte) (s : Str) : Option Nat := s.findIdx? (· = c)

/-- `strings.ReplaceAll(s, old, "")`: delete non-overlapping occurrences from the left; an empty `old`
changes nothing. -/
def removeAllAux (old : Str) : Nat → Str → Str
  | 0, s => s
  | _ + 1, [] => []
  | f + 1, b :: bs =>
    if old.isPrefixOf (b :: bs) then removeAllAux old f ((b :: bs).drop old.length)
    else b :: removeAllAux old f bs

def removeAll (old s : Str) : Str := if old = [] then s else removeAllAux old (s.length + 1) s

end Gologix
