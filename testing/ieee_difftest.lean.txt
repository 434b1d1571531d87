import Verif.IEEE.Basic
open Verif

def toF (x : F64) : Float := Float.ofBits (UInt64.ofBitVec x.bits)
def ofF (x : Float) : F64 := ⟨x.toBits.toBitVec⟩
def toF3 (x : F32) : Float32 := Float32.ofBits (UInt32.ofBitVec x.bits)
def ofF3 (x : Float32) : F32 := ⟨x.toBits.toBitVec⟩

def same (a : F64) (b : Float) : Bool := if b.isNaN then a.isNan else a.bits == (ofF b).bits
def same3 (a : F32) (b : Float32) : Bool := if b.isNaN then a.isNan else a.bits == (ofF3 b).bits

def step (s : UInt64) : UInt64 := 
  let s := s ^^^ (s <<< 13); let s := s ^^^ (s >>> 7); s ^^^ (s <<< 17)

def special : Array UInt64 := #[0, 0x8000000000000000, 1, 0x8000000000000001, 0x3ff0000000000000, 0xbff0000000000000, 0x7ff0000000000000, 0xfff0000000000000, 0x7ff8000000000000, 0x7fefffffffffffff, 0x000fffffffffffff, 0x0010000000000000, 0x7fe0000000000000, 0x4330000000000001, 0x3cb0000000000000, 0x3ca0000000000000]

def gen (s : UInt64) : UInt64 × UInt64 :=
  let s := step s
  let m := s % 8
  let s := step s
  if m == 0 then (special[(s % 16).toNat]!, s)
  else if m == 1 then -- close to one
    ((s &&& (0x800fffffffffffff : UInt64)) ||| (((s >>> 52) % 8 + 1020) <<< 52), s)
  else if m == 2 then (s &&& (0x80000000000fffff : UInt64), s)
  else if m == 3 then ((s &&& (0x800f000000000000 : UInt64)) ||| (((s >>> 40) % 64 + 1000) <<< 52), s)
  else if m == 4 then ((s &&& (0x800fffffffffffff : UInt64)) ||| ((((s >>> 52) % 60) ) <<< 52), s)
  else (s, s)

def check (n : Nat) : IO Unit := do
  let mut s : UInt64 := 0x123456789abcdef
  let mut bad := 0
  let mut cnt := 0
  for _ in [0:n] do
    let (a, s1) := gen s
    let (b, s2) := gen s1
    s := s2
    let x := Float.ofBits a; let y := Float.ofBits b
    let X := ofF x; let Y := ofF y
    let x3 := x.toFloat32; let y3 := y.toFloat32
    let x3 := if s2 % 2 == 0 then x3 else Float32.ofBits a.toUInt32
    let X3 := ofF3 x3; let Y3 := ofF3 y3
    let tests := [("add", same (X.add Y) (x+y)), ("sub", same (X.sub Y) (x-y)), ("mul", same (X.mul Y) (x*y)),
      ("div", same (X.div Y) (x/y)), ("sqrt", same (X.sqrt) x.sqrt), ("lt", X.lt Y == decide (x<y)), ("le", X.le Y == decide (x ≤ y)),
      ("eq", X.feq Y == (x == y)), ("neg", same X.neg (-x)), ("abs", same X.abs x.abs), ("fin", X.isFinite == x.isFinite),
      ("cast", same3 (Fl.cast X) x.toFloat32), ("cast2", same (Fl.cast X3) x3.toFloat), ("cast3", same3 (Fl.cast Y) y.toFloat32),
      ("add3", same3 (X3.add Y3) (x3+y3)), ("mul3", same3 (X3.mul Y3) (x3*y3)), ("div3", same3 (X3.div Y3) (x3/y3)), ("sqrt3", same3 X3.sqrt x3.sqrt),
      ("ofNat", same (Fl.ofNat a.toNat) a.toFloat), ("ofNat2", same (Fl.ofNat (a>>>(b%64)).toNat) (a>>>(b%64)).toFloat)]
    cnt := cnt + 1
    for (nm, ok) in tests do
      if !ok then
        bad := bad + 1
        if bad < 20 then IO.println s!"{nm} {a} {b} {x} {y}"
  IO.println s!"{cnt} bad {bad}"
#eval check 30000
#eval same (Fl.ofRat false 4189829 10000) 418.9829
#eval same (Fl.ofRat false 314159265358979 100000000000000) 3.14159265358979
