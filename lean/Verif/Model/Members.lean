import Verif.Model.TagList
/-
Structure descriptions: listmembers.go:18-282 `GetTemplateInstanceAttr` and `ListMembers`.

What the rest of the client does with a request is a parameter: `net n req` is the outcome of the `n`-th
exchange when the data of item 1 of the request is `req`.  `ListMembers` calls itself for members that are
structures; it runs on fuel, and the result `none` means that it has not returned yet.
-/
namespace Gologix

/-- listmembers.go:18-43 `msgGetTemplateAttrListResponse` without the result header, the count and the
numbers and statuses of the attributes, none of which is looked at. -/
structure TemplateInfo where
  words   : BitVec 32
  bytes   : BitVec 32
  members : BitVec 16
  handle  : BitVec 16
deriving DecidableEq, Repr

/-- listmembers.go:286-291 `UDTDescriptor` and 307-311 `UDTMemberDescriptor`, members with their names,
type words and the descriptor of their structure, if there is one. -/
inductive Udt where
  | mk (inst : BitVec 32) (name : Str) (info : TemplateInfo) (members : List (Str × MemberInfo × Option Udt))

def Udt.name : Udt → Str
  | .mk _ n _ _ => n

def Udt.info : Udt → TemplateInfo
  | .mk _ _ i _ => i

def Udt.members : Udt → List (Str × MemberInfo × Option Udt)
  | .mk _ _ _ ms => ms

structure TypeWorld where
  net : Nat → Bytes → Res Reply
  seq : Nat → BitVec 16

/-- `client.KnownTypesByID` and the number of exchanges so far. -/
structure TypeSt where
  known : BitVec 32 → Option Udt
  n     : Nat

/-- listmembers.go:48-87: the data of item 1 of the request for attributes 4, 5, 2 and 1. -/
def templateAttrRequest (seq : BitVec 16) (inst : BitVec 32) : Bytes :=
  let path := classBytes 0x6C#16 ++ instanceBytes (if inst = 0#32 then 1#32 else inst)
  putBV seq ++ [0x03#8, pathLengthOf path] ++ path ++
    (putBV 4#16 ++ putBV 4#16 ++ putBV 5#16 ++ putBV 2#16 ++ putBV 1#16)

/-- listmembers.go:111-132: 36 bytes, statuses ignored. -/
def templateAttrReply (r : Reply) : Res TemplateInfo :=
  if r.payload = [] then .err .eof
  else do
    let d ← item1 (r.payload.drop 6)
    let (b, _) ← readN 36 d
    .ok { words := BitVec.ofNat 32 (unle ((b.drop 12).take 4)), bytes := BitVec.ofNat 32 (unle ((b.drop 20).take 4)),
          members := BitVec.ofNat 16 (unle ((b.drop 28).take 2)), handle := BitVec.ofNat 16 (unle ((b.drop 34).take 2)) }

/-- listmembers.go:192: the arithmetic is modulo 2^32, then cut to 16 bits. -/
def templateReadLength (info : TemplateInfo) : BitVec 16 :=
  (info.words * 4#32 - 23#32).setWidth 16

/-- listmembers.go:172-200. -/
def templateReadRequest (seq : BitVec 16) (inst : BitVec 32) (info : TemplateInfo) : Bytes :=
  let path := classBytes 0x6C#16 ++ instanceBytes inst
  putBV seq ++ [0x4C#8, pathLengthOf path] ++ path ++ (putBV 0#32 ++ putBV (templateReadLength info))

/-- listmembers.go:215-234: what follows the header; the status is ignored. -/
def templateReadReply (r : Reply) : Res Bytes :=
  if r.payload = [] then .err .eof
  else do
    let d ← item1 (r.payload.drop 6)
    let (_, d) ← readN 6 d
    .ok d

/-- listmembers.go:236-240. -/
def readInfos : Nat → Bytes → List MemberInfo
  | 0, _ => []
  | k + 1, b => { info := BitVec.ofNat 16 (unle (b.take 2)), type := BitVec.ofNat 16 (unle ((b.drop 2).take 2)),
                  offset := BitVec.ofNat 32 (unle ((b.drop 4).take 4)) } :: readInfos k (b.drop 8)

/-- `bytes.Buffer.ReadString(0)`: the bytes up to and including the first zero byte, or all bytes with an
error when there is none; and the rest. -/
def readString0 (d : Bytes) : Bytes × Bool × Bytes :=
  match d.dropWhile (· != 0#8) with
  | [] => (d, false, [])
  | z :: r => (d.takeWhile (· != 0#8) ++ [z], true, r)

/-- listmembers.go:247-256: the name of the structure and the rest.  `s[:len(s)-1]` of the empty text
panics. -/
def structName (d : Bytes) : Res (Str × Bytes) :=
  match readString0 d with
  | (_, false, _) => .err .eof
  | (s, true, r) =>
    let s := if s.contains 0x3B#8 then s.takeWhile (· != 0x3B#8) else s
    if s = [] then .panic else .ok (s.dropLast, r)

/-- listmembers.go:258-278: the loop over the members.  `lm` is `ListMembers`. -/
def eachMember (lm : BitVec 32 → TypeSt → Option (Res Udt × TypeSt)) :
    List MemberInfo → Bytes → TypeSt → Option (Res (List (Str × MemberInfo × Option Udt)) × TypeSt)
  | [], _, st => some (.ok [], st)
  | m :: ms, d, st =>
    let (s, full, r) := readString0 d
    if full = false ∧ s = [] then some (.err .eof, st)
    else
      let more (u : Option Udt) (st : TypeSt) :=
        match eachMember lm ms r st with
        | none => none
        | some (.ok rs, st) => some (.ok ((s.dropLast, m, u) :: rs), st)
        | some (.err e, st) => some (.err e, st)
        | some (.panic, st) => some (.panic, st)
      if m.templateId = 0#16 then more none st
      else match lm (m.templateId.setWidth 32) st with
        | none => none
        | some (.ok d2, st) => more (some d2) st
        | some (.err _, st) => more none st
        | some (.panic, st) => some (.panic, st)

/-- listmembers.go:154-282 `ListMembers`. -/
def listMembers (W : TypeWorld) : Nat → BitVec 32 → TypeSt → Option (Res Udt × TypeSt)
  | 0, _, _ => none
  | f + 1, inst, st =>
    match st.known inst with
    | some d => some (.ok d, st)
    | none =>
      match (W.net st.n (templateAttrRequest (W.seq st.n) inst)).bind templateAttrReply with
      | .err e => some (.err e, { st with n := st.n + 1 })
      | .panic => some (.panic, { st with n := st.n + 1 })
      | .ok info =>
        match ((W.net (st.n + 1) (templateReadRequest (W.seq (st.n + 1)) inst info)).bind templateReadReply).bind
            fun d => (readN (8 * info.members.toNat) d).bind fun (b, d) => (structName d).bind fun (name, d) =>
              .ok (b, name, d) with
        | .err e => some (.err e, { st with n := st.n + 2 })
        | .panic => some (.panic, { st with n := st.n + 2 })
        | .ok (b, name, d) =>
          match eachMember (listMembers W f) (readInfos info.members.toNat b) d { st with n := st.n + 2 } with
          | none => none
          | some (.err e, st) => some (.err e, st)
          | some (.panic, st) => some (.panic, st)
          | some (.ok ms, st) =>
            let d := Udt.mk inst name info ms
            some (.ok d, { st with known := fun k => if k = inst then some d else st.known k })

end Gologix
