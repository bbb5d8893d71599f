import Verif.Lemmas.Server
/-
A concrete server state for examples.
-/
namespace Gologix.Server
open Gologix.Server.Spec

/-- The zero value of each type, for conversions whose result does not matter. -/
def zeroOf : GoTy → Scal
  | .bool => .bool false
  | .u8 => .u8 0 | .i8 => .i8 0 | .u16 => .u16 0 | .i16 => .i16 0 | .u32 => .u32 0 | .i32 => .i32 0
  | .u64 => .u64 0 | .i64 => .i64 0 | .f32 => .f32 0 | .f64 => .f64 0
  | .str => .str []

def demoConv : Conv := ⟨fun _ t => zeroOf t, fun _ t => by cases t <;> rfl⟩

/-- Two tags, `count` (5) and `arr` (1, 2, 3). -/
def demoStore : Store := fun k =>
  if k = str "count" then some (.scal (.i32 5#32))
  else if k = str "arr" then some (.slice (some .i32) [.scal (.i32 1#32), .scal (.i32 2#32), .scal (.i32 3#32)])
  else none

/-- The attributes of server.go:49-56 `NewServer`, with a fixed serial number. -/
def demoAttrs : BitVec 16 → Option Scal := fun a =>
  if a = 1#16 then some (.i16 0x1776#16)
  else if a = 2#16 then some (.i16 0x0E#16)
  else if a = 3#16 then some (.i16 0x01#16)
  else if a = 4#16 then some (.i16 0x1412#16)
  else if a = 5#16 then some (.i16 0x3060#16)
  else if a = 6#16 then some (.u32 0xC0FFEE#32)
  else if a = 7#16 then some (.str (str "Gologix"))
  else none

def demoSrv : Srv where
  conns := ConnTable.init.add { ref := 0, id := 7#16, ot := 0x11#32, to := 0x22#32, rpi := 0#32, path := [1#8, 0#8] }
  nextRef := 1
  router := Router.new.handle [1#8, 0#8] 0
  eps := fun e => if e = 0 then .tags demoStore [str "count", str "arr"] else .other
  attrs := demoAttrs
  rnd := fun n => BitVec.ofNat 32 (0x1000 + n)
  io := []

/-- A connection with session 0x99 that has received `inp`. -/
def demoSt (inp : Bytes) : St where
  h := { handle := 0x99#32, options := 0#32, context := 0#64, ot := 0x11#32, to := 0x22#32, seq := 0#16,
         addr := [127#8, 0#8, 0#8, 1#8], port := 44818#16 }
  srv := demoSrv
  inp := inp
  sent := []

/-- A connected request on the demo connection. -/
def demoUnit (data1 : Bytes) : Req where
  cmd := 0x70#16
  length := 0#16
  session := 0x99#32
  status := 0#32
  context := 0x1122334455667788#64
  options := 0#32
  pre := [0, 0, 0, 0, 0, 0]
  id0 := 0xA1#16
  data0 := [0x11#8, 0#8, 0#8, 0#8]
  id1 := 0xB1#16
  data1 := data1

/-- An unconnected request. -/
def demoRR (data1 : Bytes) : Req where
  cmd := 0x6F#16
  length := 0#16
  session := 0x99#32
  status := 0#32
  context := 0x1122334455667788#64
  options := 0#32
  pre := [0, 0, 0, 0, 0, 0]
  id0 := 0#16
  data0 := []
  id1 := 0xB2#16
  data1 := data1

end Gologix.Server
