import Verif.Float.Basic
open Scarlet
def okN32 (a : F32) (b : Float32) : Bool := if b.isNaN then a.isNaN else a.bits.toNat == b.toBits.toNat
def okN64 (a : F64) (b : Float) : Bool := if b.isNaN then a.isNaN else a.bits.toNat == b.toBits.toNat
def special32 : List Nat := [0,0x80000000,1,0x80000001,2,0x7fffff,0x800000,0x800001,0x807fffff,0x80800000,0x3f800000,0xbf800000,0x7f7fffff,0xff7fffff,0x7f800000,0xff800000,0x7fc00000,0x3f7fffff,0x3f800001,0x40000000,0x3f000000,0x34000000,0x33800000,0x7effffff]
def special64 : List Nat := [0,2^63,1,2^63+1,2^52-1,2^52,2^52+1,0x3ff0000000000000,0xbff0000000000000,0x7fefffffffffffff,0xffefffffffffffff,0x7ff0000000000000,0xfff0000000000000,0x7ff8000000000000,0x3fefffffffffffff,0x3ff0000000000001]
def main : IO Unit := do
  let mut bad := 0
  let mut n := 0
  let chk32 (a b : Nat) : IO Nat := do
    let x : F32 := ⟨BitVec.ofNat _ a⟩; let y : F32 := ⟨BitVec.ofNat _ b⟩
    let x' := Float32.ofBits a.toUInt32; let y' := Float32.ofBits b.toUInt32
    let ok := okN32 (x.add y) (x'+y') && okN32 (x.sub y) (x'-y') && okN32 (x.mul y) (x'*y') && okN32 (x.div y) (x'/y') && okN32 x.sqrt x'.sqrt && x.lt y == decide (x' < y') && x.le y == decide (x' ≤ y') && x.feq y == (x' == y') && okN64 (x.cast 52 11) x'.toFloat && x.toI64 == x'.toInt64.toInt && okN32 x.neg (-x')
      && okN32 (Flt.ofInt 23 8 (Int64.ofNat (a*4294967296+b)).toInt) ((Int64.ofNat (a*4294967296+b)).toFloat32)
    if !ok then IO.println s!"bad32 {a} {b}"; return 1
    return 0
  let chk64 (a b : Nat) : IO Nat := do
    let x : F64 := ⟨BitVec.ofNat _ a⟩; let y : F64 := ⟨BitVec.ofNat _ b⟩
    let x' := Float.ofBits a.toUInt64; let y' := Float.ofBits b.toUInt64
    let ok := okN64 (x.add y) (x'+y') && okN64 (x.sub y) (x'-y') && okN64 (x.mul y) (x'*y') && okN64 (x.div y) (x'/y') && okN64 x.sqrt x'.sqrt && x.lt y == decide (x' < y') && x.le y == decide (x' ≤ y') && x.feq y == (x' == y') && okN32 (x.cast 23 8) x'.toFloat32 && x.toI64 == x'.toInt64.toInt && okN64 x.neg (-x')
      && okN64 (Flt.ofInt 52 11 (Int64.ofNat a).toInt) ((Int64.ofNat a).toFloat)
    if !ok then IO.println s!"bad64 {a} {b}"; return 1
    return 0
  for a in special32 do for b in special32 do bad := bad + (← chk32 a b); n := n+1
  for a in special64 do for b in special64 do bad := bad + (← chk64 a b); n := n+1
  for i in [0:100000] do
    let a ← IO.rand 0 (2^32-1); let b ← IO.rand 0 (2^32-1)
    bad := bad + (← chk32 a b)
    -- close exponents
    let b' := (a / 2^25 * 2^25 + b % 2^25) ^^^ (if i % 2 == 0 then 2^31 else 0)
    bad := bad + (← chk32 a b')
    bad := bad + (← chk32 (a % 2^24) (b % 2^24 + (i%2)*2^31))
    let hi ← IO.rand 0 (2^32-1)
    bad := bad + (← chk32 a (special32[hi % special32.length]!))
    let c ← IO.rand 0 (2^32-1)
    let x := a*2^32+b; let y := hi*2^32+c
    bad := bad + (← chk64 x y)
    bad := bad + (← chk64 x ((x / 2^54 * 2^54 + y % 2^54) ^^^ (if i % 2 == 0 then 2^63 else 0)))
    bad := bad + (← chk64 x (special64[hi % special64.length]!))
    -- f64 near f32 range for casts
    let z := (0x380 + hi % 0x100) * 2^52 + y % 2^52
    bad := bad + (← chk64 z y)
    n := n + 8
  IO.println s!"{n} cases, {bad} bad"
