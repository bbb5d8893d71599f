import Verif.Model.Write
/-
Structures as maps of tags: udt_write.go, write.go `WriteMulti`.
-/
namespace Gologix

/-- A Go value given to `WriteMulti`: a structure (its fields in order, with Go name, text of the `gologix` tag and
whether it is exported), an array (its elements as the fields of `elems`, names and tags without meaning), or a value
of any other kind. -/
inductive WTree where
  | val (w : WVal)
  | arr (elems : WTree)
  | nil
  | cons (name tag : Str) (exported : Bool) (f : WTree) (rest : WTree)
deriving DecidableEq, Repr

/-- `d[k] = v` for a Go map; the map is a list of its entries. -/
def dictSet (d : List (Str × WVal)) (k : Str) (v : WVal) : List (Str × WVal) :=
  d.filter (fun e => e.1 ≠ k) ++ [(k, v)]

/-- `for k := range d2 { d[k] = d2[k] }`. -/
def dictUpdate (d d2 : List (Str × WVal)) : List (Str × WVal) :=
  d2.foldl (fun d e => dictSet d e.1 e.2) d

/-- udt_write.go:44-77 `udt_to_dict`; `d` is the map so far.  `Interface` panics for fields that are not exported
(lines 59, 70). -/
def udtToDict (tag : Str) (d : List (Str × WVal)) : WTree → Res (List (Str × WVal))
  | .val _ => .panic
  | .arr _ => .panic
  | .nil => .ok d
  | .cons name _ exported f rest =>
    let fulltag := tag ++ [0x2E#8] ++ name
    match f with
    | .arr _ => udtToDict tag d rest
    | .val w => if exported then udtToDict tag (dictSet d fulltag w) rest else .panic
    | .nil => if exported then udtToDict tag d rest else .panic
    | .cons n t e g r =>
      if exported then do
        let d2 ← udtToDict fulltag [] (.cons n t e g r)
        udtToDict tag (dictUpdate d d2) rest
      else .panic

/-- udt_write.go:11-41 `multi_to_dict`; a field without a tag has the empty one. -/
def multiToDict (d : List (Str × WVal)) : WTree → Res (List (Str × WVal))
  | .val _ => .panic
  | .arr _ => .panic
  | .nil => .ok d
  | .cons _ tag exported f rest =>
    match f with
    | .arr _ => multiToDict d rest
    | .val w => if exported then multiToDict (dictSet d tag w) rest else .panic
    | .nil => if exported then multiToDict d rest else .panic
    | .cons n t e g r =>
      if exported then do
        let d2 ← udtToDict tag [] (.cons n t e g r)
        multiToDict (dictUpdate d d2) rest
      else .panic

/-- write.go:49-63 `WriteMulti`, up to the map it hands to `WriteMap`. -/
def writeMultiMap : WTree → Res (List (Str × WVal))
  | .nil => multiToDict [] .nil
  | .cons n t e f r => multiToDict [] (.cons n t e f r)
  | _ => .err .fail

end Gologix
