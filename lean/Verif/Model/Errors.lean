import Verif.Base.Bytes
import Verif.Spec.Controller
/-
Several errors in one (errors.go:72-112) and `errors.Is` of Go's standard library; server.go:97-112.
-/
namespace Gologix

open Spec (AnError)

mutual
/-- `errors.Is`: compare, ask the error's own `Is`, go on with what it unwraps to.  A `multiError` holds a slice and is
never equal to anything. -/
def errIs (t : Nat) : AnError → Res Bool
  | .leaf n => .ok (decide (n = t))
  | .wrap n e => if n = t then .ok true else errIs t e
  | .multi es => errIsMulti t es
/-- `Is` (errors.go:110-112) and `Unwrap` (errors.go:94-107) of a `multiError`: `errs[0]` of no errors panics. -/
def errIsMulti (t : Nat) : List AnError → Res Bool
  | [] => .panic
  | [a] => do if ← errIs t a then .ok true else errIs t a
  | [a, b] => do if ← errIs t a then .ok true else errIs t b
  | a :: b :: c :: r => do if ← errIs t a then .ok true else errIsMulti t (b :: c :: r)
end

/-- errors.go:72-77 `newMultiError` -/
def newMulti : Option AnError → List AnError
  | some e => [e]
  | none => []

/-- server.go:97-112, what `Serve` returns: the error of one of the two loops (wrapped, `n` stands for the wrapping) and
the errors on closing the listeners, wrapped likewise. -/
def serveError (n : Nat) (first : AnError) (tcp udp : Option (Nat × AnError)) : AnError :=
  let es := newMulti (some (.wrap n first))
  let es := match tcp with
    | some (k, e) => es ++ [.wrap k e]
    | none => es
  let es := match udp with
    | some (k, e) => es ++ [.wrap k e]
    | none => es
  .multi es

end Gologix
