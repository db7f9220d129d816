import Verif.Model.Pem
import Verif.Model.Rc2
import Verif.Model.Rc4
import Verif.Model.Rc5
import Verif.Model.Md
import Verif.Model.Md2
import Verif.Model.Aes
import Verif.Model.Text
import Verif.Model.Lib
import Verif.Model.Effects
import Verif.Model.Release
import Verif.Spec.Big
import Verif.Props.Big
open Verif Verif.Model

def hexd (n : Nat) : Char := "0123456789abcdef".toList.getD n '?'
def hx (l : List U8) : String := String.ofList (l.flatMap fun b => [hexd (b.toNat/16), hexd (b.toNat%16)])
def hv (c : Char) : Nat := if c.isDigit then c.toNat - 48 else c.toNat - 87
def unhx : List Char → List U8
  | a :: b :: r => BitVec.ofNat 8 (hv a * 16 + hv b) :: unhx r
  | _ => []
def U (s : String) : List U8 := unhx s.toList
def rr {α} (f : α → String) (x : R α) : String := match x with | .ok a => f a | .error _ => "PANIC"
def B (s : String) : Big.BigUint := ⟨U s⟩
def er (l : List Char) : String := "ERR " ++ String.ofList l
def cap : Nat → Nat := Verif.Props.exactCap
partial def pa : Asn1.Asn1 → String
  | .integer b => "I" ++ hx b | .octetString b => "O" ++ hx b | .bitString b u => "B" ++ hx b ++ "/" ++ toString u.toNat
  | .null => "N" | .objectIdentifier b => "D" ++ hx b | .sequence l => "[" ++ String.intercalate "," (l.map pa) ++ "]"
def vec (n : Nat) (l : List U8) : Vector U8 n := Vector.ofFn fun i => l.getD i.val 0
def toChars (l : List U8) : List Char := ((String.fromUTF8? ⟨(l.map fun b => b.toNat.toUInt8).toArray⟩).getD "").toList
def fromChars (l : List Char) : List U8 := (String.ofList l).toUTF8.toList.map fun b => BitVec.ofNat 8 b.toNat
def bo (x : Big.BigUint) : String := hx x.bytes
def testCipher (n : Nat) : BlockCipher n :=
  let f (b : Vector U8 n) : R (Vector U8 n) :=
    if b.toList.head? = some 0xee then .error .explicit else .ok (b.map (· ^^^ 0x5a)).reverse
  ⟨f, f⟩
def testMode (n : Nat) : Mode n (Vector U8 n) where
  encryptBlock c s b := do let o ← c.encrypt (Vector.zipWith (· ^^^ ·) s b); return (o, o)
  decryptBlock c s b := do let o ← c.decrypt b; return (Vector.zipWith (· ^^^ ·) s o, b)
def showRun (r : Run) : String := hx r.emitted ++ ":" ++ rr (fun _ => "ok") r.result
abbrev EW (n : Nat) := List U8 × Vector U8 n
def lift2 {n} (f : Vector U8 n → Vector U8 n → R (Vector U8 n × Vector U8 n)) (b : Vector U8 n) : Effects.Eff (EW n) (Vector U8 n) :=
  fun (w, s) => match f s b with | .ok (o, s') => (.ok o, (w, s')) | .error e => (.error e, (w, s))
def push {n} (b : U8) : Effects.Eff (EW n) Unit := fun (w, s) => (.ok (), (w ++ [b], s))
def showEff {n} (x : Effects.Eff (EW n) Unit) (s : Vector U8 n) : String :=
  let (r, (w, _)) := x.exec ([], s); hx w ++ ":" ++ rr (fun _ => "ok") r
def both (a b : String) : String := if a = b then a else "MODELS DIFFER " ++ a ++ " " ++ b
def run (ws : List String) : String :=
  match ws with
  | ["frombe", a] => rr bo (Big.fromBeBytes (U a))
  | ["fromle", a] => bo (Big.fromLeBytes (U a))
  | ["bits", a] => rr toString (Big.bitsUsed (B a))
  | ["isset", a, i] => rr toString (Big.isSet (B a) i.toNat!)
  | ["upd", a, i, s] => rr bo (Big.update (B a) i.toNat! (s == "1"))
  | ["add8", a, b] => rr bo (Big.addByte (B a) ((U b).headD 0))
  | ["add", a, b] => rr bo (Big.add (B a) (B b))
  | ["cmp", a, b] => rr (fun o => toString (repr o)) (Big.cmp (B a) (B b))
  | ["sub", a, b] => rr bo (Big.sub cap (B a) (B b))
  | ["shl", a, i] => bo (Big.shl (B a) i.toNat!)
  | ["shr", a, i] => rr bo (Big.shr (B a) i.toNat!)
  | ["rem", a, b] => rr bo (Big.rem cap (B a) (B b))
  | ["asu", a] => rr (fun | .ok v => toString v.toNat | .error n => er (Text.asU128Error n)) (Big.asU128 (B a))
  | ["mulmod", a, b, m] => rr bo (Rsa.mulMod cap (B a) (B b) (B m))
  | ["powmod", a, b, m] => rr bo (Rsa.powMod cap (B a) (B b) (B m))
  | ["keys", p, q, e] => rr (fun (s, t) => bo s.n ++ ":" ++ bo s.d ++ ":" ++ bo t.n ++ ":" ++ bo t.e) (Rsa.createKeys (B p) (B q) (B e))
  | ["rkeys", p, q, e] => rr (fun (s, t) => bo s.n ++ ":" ++ bo s.d ++ ":" ++ bo t.n ++ ":" ++ bo t.e) (Release.createKeys (B p) (B q) (B e))
  | ["asn1", a] => rr (fun | .ok t => pa t | .error e => er (Text.asn1Error e)) (Asn1.tryFrom (U a))
  | ["pem", a] => (match Pem.decodePem (toChars (U a)) with | .ok p => hx (fromChars p.label) ++ ":" ++ hx p.data | .error e => er (Text.pemError [] e))
  | ["show", l, d] => hx (fromChars (Pem.display ⟨toChars (U l), U d⟩))
  | ["priv", a] => rr (fun | .ok k => bo k.n ++ ":" ++ bo k.d | .error e => er (Text.keyError e)) (Pem.privateKeyTryFrom ⟨Pem.privateLabel, U a⟩)
  | ["pub", a] => rr (fun | .ok k => bo k.n ++ ":" ++ bo k.e | .error e => er (Text.keyError e)) (Pem.publicKeyTryFrom ⟨Pem.publicLabel, U a⟩)
  | ["benc", n, iv, a] => let n := n.toNat!; both
      (showRun (blockEncrypt (testMode n) (testCipher n) (vec n (U iv)) (U a)))
      (showEff (Effects.encrypt (lift2 ((testMode n).encryptBlock (testCipher n))) push (U a)) (vec n (U iv)))
  | ["bdec", n, iv, a] => let n := n.toNat!; both
      (showRun (blockDecrypt (testMode n) (testCipher n) (vec n (U iv)) (U a)))
      (showEff (Effects.decrypt (lift2 ((testMode n).decryptBlock (testCipher n))) push (U a)) (vec n (U iv)))
  | ["bitpad", n, a] => rr (fun v => hx v.toList) (Pad.bitPad n.toNat! (U a))
  | ["bitunpad", n, a] => rr (fun (v, k) => hx v.toList ++ ":" ++ toString k) (Pad.bitUnpad n.toNat! (vec _ (U a)))
  | ["pkpad", n, a] => rr (fun v => hx v.toList) (Pad.pkcsPad n.toNat! (U a))
  | ["pkunpad", n, a] => rr toString (Pad.pkcsUnpad n.toNat! (vec _ (U a)))
  | ["oaepenc", l, m, n] => rr hx (Oaep.encode Sha.sha256 (U l) (U m) n.toNat!)
  | ["oaepdec", l, m, n] => rr (fun | .ok m => hx m | .error e => er (Text.oaepError e)) (Oaep.decode Sha.sha256 (U l) (U m) n.toNat!)
  | ["rsaenc", e, n, m] => rr hx (Rsa.encryptMessage cap ⟨B e, B n⟩ (U m) Oaep.rsaPadding)
  | ["rsadec", e, n, m] => rr hx (Rsa.decryptMessage cap ⟨B e, B n⟩ (U m) Oaep.rsaPadding)
  | ["rc2", k, n, b] => rr (fun c => hx (Rc2.encrypt c (vec 8 (U b))).toList ++ ":" ++ hx (Rc2.decrypt c (vec 8 (U b))).toList) (Rc2.fromKey (U k) (BitVec.ofNat 16 n.toNat!))
  | ["rc4", k, d] => rr hx (do Rc4.encrypt (← Rc4.new (U k)) (U d))
  | ["rc5", k, n, b] => rr (fun (x, y) => hx x ++ ":" ++ hx y) (do
      let c ← Rc5.new (U k) (BitVec.ofNat 8 n.toNat!)
      let x ← Rc5.encrypt c (vec 8 (U b)); let y ← Rc5.decrypt c (vec 8 (U b)); return (x.toList, y.toList))
  | ["aes", k, b] => rr (fun (x, y) => hx x ++ ":" ++ hx y) (do
      let c ← (match (U k).length with | 16 => Aes.with128 (vec 16 (U k)) | 24 => Aes.with192 (vec 24 (U k)) | _ => Aes.with256 (vec 32 (U k)))
      let x ← Aes.encrypt c (vec 16 (U b)); let y ← Aes.decrypt c (vec 16 (U b)); return (x.toList, y.toList))
  | ["md2", a] => rr (fun v => hx v.toList) (Md2.hash (U a))
  | ["md4", a] => rr (fun v => hx v.toList) (Md4.hash (U a))
  | ["md5", a] => rr (fun v => hx v.toList) (Md5.hash (U a))
  | ["sha1", a] => rr (fun v => hx v.toList) (Sha.sha1 (U a))
  | ["sha224", a] => rr (fun v => hx v.toList) (Sha.sha224 (U a))
  | ["sha256", a] => rr (fun v => hx v.toList) (Sha.sha256 (U a))
  | ["sha384", a] => rr (fun v => hx v.toList) (Sha.sha384 (U a))
  | ["sha512", a] => rr (fun v => hx v.toList) (Sha.sha512 (U a))
  | ["fromhex", n, a] => rr (fun | .ok v => hx v.toList | .error _ => "ERR ") (Sha.fromHex n.toNat! (U a))
  | _ => "BADOP"
def main : IO Unit := do
  let h ← IO.getStdin
  let mut go := true
  while go do
    let l ← h.getLine
    if l.isEmpty then go := false
    else IO.println (run ((l.trimAscii.toString).splitOn " ").dropLast)
