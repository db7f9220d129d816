import Verif.Basic

/-! # Model of `src/big/uint.rs`

`Vec::with_capacity(n).capacity()` is only documented to be at least `n`. It is observable in `sub_assign`, so it is the
parameter `cap` of the functions that depend on it. -/

namespace Verif.Model.Big
open Verif

/-- `struct BigUint`, src/big/uint.rs:6-9. -/
structure BigUint where
  bytes : List U8
  deriving DecidableEq, Repr

/-- `BigUint::trim_trailing_zeroes`, src/big/uint.rs:73-77, and the loop of `from_le_bytes`, lines 27-32: pop while the
last byte is 0. -/
def trim (bytes : List U8) : List U8 := (bytes.reverse.dropWhile (· == 0#8)).reverse

/-- `BigUint::from_u128`, src/big/uint.rs:37-47. -/
def fromU128 (value : U128) : R BigUint :=
  if value = 0#128 then .ok ⟨[]⟩
  else
    let bytes := natToLE 16 value.toNat
    -- `rposition`: the search runs from the end, the index counts from the start
    match bytes.reverse.findIdx? (· != 0#8) with
    | none => .error .unwrap
    | some k => .ok ⟨bytes.take (16 - 1 - k + 1)⟩

/-- `BigUint::from_be_bytes`, src/big/uint.rs:12-22. -/
def fromBeBytes (bytes : List U8) : R BigUint :=
  match bytes.findIdx? (· != 0#8) with
  | none => fromU128 0#128
  | some k => .ok ⟨(bytes.drop k).reverse⟩

/-- `BigUint::from_le_bytes`, src/big/uint.rs:24-35. -/
def fromLeBytes (bytes : List U8) : BigUint := ⟨trim bytes⟩

/-- `BigUint::as_u128`, src/big/uint.rs:49-59. The error message is reduced to the number it contains. -/
def asU128 (x : BigUint) : R (Except Nat U128) := do
  if x.bytes.length > 16 then return .error x.bytes.length
  let bytes ← copyInto (Vector.replicate 16 0#8) 0 x.bytes
  return .ok (BitVec.ofNat 128 (leVal bytes.toList))

/-- `u8::ilog2`. Used at src/big/uint.rs:69. -/
def ilog2 (b : U8) : R Nat := if b = 0#8 then .error .ilogZero else .ok b.toNat.log2

/-- `BigUint::bits_used`, src/big/uint.rs:61-71. -/
def bitsUsed (x : BigUint) : R Nat := do
  if x.bytes.isEmpty then return 0
  let lastIdx := x.bytes.length - 1
  let bits ← mulU32 (lastIdx % 2 ^ 32) 8
  let top ← ilog2 (← idx x.bytes lastIdx)
  addU32 bits (top + 1)

/-- `BigUint::is_set`, src/big/uint.rs:79-92. -/
def isSet (x : BigUint) (i : Nat) : R Bool := do
  if i ≥ (← bitsUsed x) then return false
  if x.bytes.isEmpty then return false
  let byteIdx := i / 8
  if byteIdx ≥ x.bytes.length then return false
  let bitIdx := i % 8
  return (((← idx x.bytes byteIdx) >>> bitIdx) &&& 1#8) != 0#8

/-- `BigUint::update`, src/big/uint.rs:95-109. -/
def update (x : BigUint) (i : Nat) (set : Bool) : R BigUint := do
  if x.bytes.isEmpty then throw .explicit
  let byteIdx := i / 8
  if byteIdx ≥ x.bytes.length then throw .explicit
  let bitIdx := i % 8
  let b ← idx x.bytes byteIdx
  let b' := if set then b ||| (1#8 <<< bitIdx) else b &&& ~~~(1#8 <<< bitIdx)
  return ⟨x.bytes.set byteIdx b'⟩

/-- `BigUint::to_be_bytes`, src/big/uint.rs:111-113. -/
def toBeBytes (x : BigUint) : List U8 := x.bytes.reverse

/-- Rust `a + b` on `u16` (debug profile). Used at src/big/uint.rs:132, 158 and 160. -/
def addU16 (a b : Nat) : R Nat := if a + b < 2 ^ 16 then .ok (a + b) else .error .overflow

/-- The loop of `AddAssign<u8>`, src/big/uint.rs:128-135. -/
def addByteLoop : List U8 → Nat → R (List U8)
  | [], _ => .ok []
  | b :: bs, carry => do
    if carry = 0 then return b :: bs
    let sum ← addU16 carry b.toNat
    let rest ← addByteLoop bs ((sum >>> 8) &&& 0xff)
    return BitVec.ofNat 8 (sum &&& 0xff) :: rest

/-- `AddAssign<u8>::add_assign`, src/big/uint.rs:122-139. -/
def addByte (x : BigUint) (rhs : U8) : R BigUint := do
  let bytes ← addByteLoop (x.bytes ++ [0#8]) rhs.toNat
  return ⟨trim bytes⟩

/-- The loop of `AddAssign<&BigUint>`, src/big/uint.rs:156-165, over the bytes of `l` except the last one (which is
replaced by the final carry); `r` holds the bytes of the right hand side from position `i` on. -/
def addLoop : List U8 → List U8 → Nat → R (List U8)
  | [], _, carry => .ok [BitVec.ofNat 8 carry]
  | b :: bs, r, carry => do
    let sum ← addU16 carry b.toNat
    let sum ← match r with
      | [] => .ok sum
      | y :: _ => addU16 sum y.toNat
    let rest ← addLoop bs r.tail ((sum >>> 8) &&& 0xff)
    return BitVec.ofNat 8 (sum &&& 0xff) :: rest

/-- `AddAssign<&BigUint>::add_assign`, src/big/uint.rs:141-169. The zero pushed in line 146 is the last byte that
`addLoop` replaces. -/
def add (x rhs : BigUint) : R BigUint := do
  let l := x.bytes ++ List.replicate (rhs.bytes.length - x.bytes.length) 0#8
  let bytes ← addLoop l rhs.bytes 0
  return ⟨trim bytes⟩

/-- The loop of `Ord::cmp`, src/big/uint.rs:175-184, for the indices below the first argument, downwards. -/
def cmpLoop (x y : BigUint) : Nat → R Ordering
  | 0 => .ok .eq
  | i + 1 => do
    let a ← isSet x i
    let b ← isSet y i
    if a && !b then return .gt
    if !a && b then return .lt
    cmpLoop x y i

/-- `Ord::cmp`, src/big/uint.rs:171-189. -/
def cmp (x y : BigUint) : R Ordering := do
  match compare (← bitsUsed x) (← bitsUsed y) with
  | .eq => cmpLoop x y (← bitsUsed x)
  | ord => return ord

/-- `PartialOrd::partial_cmp`, src/big/uint.rs:191-195. -/
def partialCmp (x y : BigUint) : R (Option Ordering) := do return some (← cmp x y)

/-- The loop of `sub_assign`, src/big/uint.rs:217-219, for `n` indices from `i` on. -/
def clearLoop (x : BigUint) (i : Nat) : Nat → R BigUint
  | 0 => .ok x
  | n + 1 => do clearLoop (← update x i false) (i + 1) n

/-- `SubAssign::sub_assign`, src/big/uint.rs:197-222. -/
def subAssign (cap : Nat → Nat) (x rhs : BigUint) : R BigUint := do
  let curr ← bitsUsed x
  let offset ← subU (cap (x.bytes.length + 1)) rhs.bytes.length
  let inv : BigUint := ⟨trim (rhs.bytes.map (~~~ ·) ++ List.replicate offset (~~~0#8))⟩
  let x ← addByte x 1#8
  let x ← add x inv
  let x ← clearLoop x curr ((← bitsUsed x) - curr)
  return ⟨trim x.bytes⟩

/-- `Sub::sub`, src/big/uint.rs:224-232. -/
def sub (cap : Nat → Nat) (x rhs : BigUint) : R BigUint := subAssign cap x rhs

/-- The loop of `ShlAssign`, src/big/uint.rs:263-267. -/
def shlLoop (rhs : Nat) : List U8 → U8 → List U8
  | [], _ => []
  | b :: bs, carry => (carry ||| (b <<< rhs)) :: shlLoop rhs bs (b >>> (8 - rhs))

/-- `ShlAssign::shl_assign`, src/big/uint.rs:254-277. -/
def shl (x : BigUint) (rhs : Nat) : BigUint :=
  let steps := rhs / 8
  let rhs := rhs - steps * 8
  let bytes := if rhs > 0 then trim (shlLoop rhs (x.bytes ++ [0#8]) 0#8) else x.bytes
  let bytes := if steps > 0 then List.replicate steps 0#8 ++ bytes else bytes
  ⟨bytes⟩

/-- The loop of `ShrAssign`, src/big/uint.rs:290-295, from the last byte to the first; also the final carry. -/
def shrLoop (rhs : Nat) : List U8 → List U8 × U8
  | [] => ([], 0#8)
  | b :: bs =>
    let r := shrLoop rhs bs
    ((r.2 ||| (b >>> rhs)) :: r.1, b <<< (8 - rhs))

/-- `ShrAssign::shr_assign`, src/big/uint.rs:279-299. `splice(0..steps, [])` panics if there are fewer bytes. -/
def shr (x : BigUint) (rhs : Nat) : R BigUint := do
  let steps := rhs / 8
  let bytes ← if rhs ≥ 8 then
      if steps ≤ x.bytes.length then .ok (x.bytes.drop steps) else .error .index
    else .ok x.bytes
  let rhs := if rhs ≥ 8 then rhs - steps * 8 else rhs
  if rhs > 0 then return ⟨trim (shrLoop rhs bytes).1⟩
  return ⟨bytes⟩

/-- The loop of `RemAssign`, src/big/uint.rs:245-250: `n` iterations. -/
def remLoop (cap : Nat → Nat) (x m : BigUint) : Nat → R BigUint
  | 0 => .ok x
  | n + 1 => do
    let x ← if (← cmp m x) ≠ .gt then subAssign cap x m else .ok x
    let m ← shr m 1
    remLoop cap x m n

/-- `RemAssign::rem_assign`, src/big/uint.rs:234-252. -/
def rem (cap : Nat → Nat) (x rhs : BigUint) : R BigUint := do
  if (← bitsUsed rhs) > (← bitsUsed x) then return x
  let d ← subU (← bitsUsed x) (← bitsUsed rhs)
  remLoop cap x (shl rhs d) (d + 1)

end Verif.Model.Big
