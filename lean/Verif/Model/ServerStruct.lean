import Verif.Model.ReadStruct
/-
A tag of the server that holds a Go structure.
-/
namespace Gologix.Server
open Gologix

/-- server_connected.go:317, 336-338 with types.go:71 and items.go:274-278: what a read of such a tag is answered with.  `fields`
are the fields as `binary.Write` encodes them, one behind the other.  Structures are not among the values of `TVal`; the way
of a request to this point does not depend on the value. -/
def structPayload (fields : List Bytes) : Bytes := [tStruct, 0#8] ++ fields.flatten

end Gologix.Server
