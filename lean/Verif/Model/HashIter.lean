import Verif.Model.Effects
import Verif.Model.Md
import Verif.Model.Md2
import Verif.Model.Release

/-! # `md2`, `md4` and `md5` of an iterator that is arbitrary code

`Verif.Model.Md` and `Verif.Model.Md2` take the bytes that the iterator yields as a list. Here the iterator is arbitrary code with
effects on a state `W`, which may panic, never end, or yield bytes again after it has returned `None`. -/

namespace Verif.Model.HashIter
open Verif Verif.Model.Effects

/-- `for byte in data.into_iter() { hasher.consume(*byte); }`, src/md/md2.rs:3-5, src/md/md4.rs:4-6, src/md/md5.rs:4-6. The number is
fuel: the iterator need not end. -/
def feed {W H : Type} (next : Eff W (Option U8)) (consume : H → U8 → R H) : Nat → H → Eff W H
  | 0, _ => throw .diverged
  | fuel + 1, h => do
    match ← next with
    | none => pure h
    | some b =>
      let h ← Eff.ofR (consume h b)
      feed next consume fuel h

/-- `md2::hash`, src/md/md2.rs:1-7. -/
def md2 {W : Type} (next : Eff W (Option U8)) (fuel : Nat) : Eff W (Vector U8 16) := do
  let h ← feed next Md2.Hasher.consume fuel Md2.Hasher.new
  Eff.ofR h.finish

/-- `hash`, src/md/md4.rs:1-9, src/md/md5.rs:1-9, with overflow checks. -/
def md {W : Type} (process : Vector U32 16 → Md.Abcd → R Md.Abcd) (next : Eff W (Option U8)) (fuel : Nat) :
    Eff W (Vector U8 16) := do
  let h ← feed next (Md.Hasher.consume process) fuel Md.Hasher.new
  Eff.ofR (h.finish process)

/-- `hash`, src/md/md4.rs:1-9, src/md/md5.rs:1-9, without overflow checks. -/
def mdRelease {W : Type} (process : Vector U32 16 → Md.Abcd → R Md.Abcd) (next : Eff W (Option U8)) (fuel : Nat) :
    Eff W (Vector U8 16) := do
  let h ← feed next (Release.consume process) fuel Md.Hasher.new
  Eff.ofR (Release.finish process h)

/-- `md4::hash`, src/md/md4.rs:1-9. -/
def md4 {W : Type} (next : Eff W (Option U8)) (fuel : Nat) : Eff W (Vector U8 16) := md (fun x s => .ok (Md4.process x s)) next fuel
/-- `md5::hash`, src/md/md5.rs:1-9. -/
def md5 {W : Type} (next : Eff W (Option U8)) (fuel : Nat) : Eff W (Vector U8 16) := md Md5.process next fuel
/-- `md4::hash`, src/md/md4.rs:1-9, without overflow checks. -/
def md4Release {W : Type} (next : Eff W (Option U8)) (fuel : Nat) : Eff W (Vector U8 16) :=
  mdRelease (fun x s => .ok (Md4.process x s)) next fuel
/-- `md5::hash`, src/md/md5.rs:1-9, without overflow checks. -/
def md5Release {W : Type} (next : Eff W (Option U8)) (fuel : Nat) : Eff W (Vector U8 16) := mdRelease Md5.process next fuel

end Verif.Model.HashIter
