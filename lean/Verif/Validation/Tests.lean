import Verif.Model.Aes
import Verif.Model.Rc4
import Verif.Model.Rc5
import Verif.Model.Sha
import Verif.Model.Pem
import Verif.Model.Lib
import Verif.Model.Asn1

/-! # The project's own test cases, run on the model by the kernel

These are tests, not proofs of properties: they check the transcription of the code into the model on
the inputs and expected outputs that the project's tests use. No property in `MANIFEST.json` rests on
them. The test cases that are slow in the kernel (AES blocks, RC2, MD2, SHA-384 and SHA-512, the larger
RSA numbers) are left out. The hashes are in `Verif.Validation.Hashes`, the test with a 2048-bit key in
`Verif.Validation.RsaBig`. -/

namespace Verif.Validation
open Verif Verif.Model

/-- `SimpleCipher` of the tests, src/lib.rs:148-161. -/
def simpleCipher : BlockCipher 4 := ⟨fun b => .ok b.reverse, fun b => .ok b.reverse⟩
/-- `NoopCipher::<4>` of the tests, src/lib.rs:163-173. -/
def noopCipher : BlockCipher 4 := ⟨.ok, .ok⟩
/-- `SimpleCipherMode::<4>` of the tests, src/lib.rs:175-204. -/
def simpleMode : Mode 4 (Vector U8 4) where
  encryptBlock c s b := (c.encrypt (Vector.zipWith (· ^^^ ·) b s)).map fun o => (o, o)
  decryptBlock c _ b := (c.decrypt b).map fun o => (Vector.zipWith (· ^^^ ·) o b, b)

/-! src/pad.rs:56-144 -/

example :
    Pad.bitPad 4 [] = .ok #v[128#8, 0#8, 0#8, 0#8] := by
  decide +kernel

example :
    Pad.bitPad 4 [1#8, 2#8, 3#8] = .ok #v[1#8, 2#8, 3#8, 128#8] := by
  decide +kernel

example :
    Pad.bitPad 4 [1#8, 2#8, 3#8, 4#8] = .error .explicit := by
  decide +kernel

example :
    Pad.bitPad 4 [1#8, 2#8, 3#8, 4#8, 5#8] = .error .explicit := by
  decide +kernel

example :
    Pad.bitUnpad 4 #v[128#8, 0#8, 0#8, 0#8] = .ok (#v[0#8, 0#8, 0#8, 0#8], 0) := by
  decide +kernel

example :
    Pad.bitUnpad 4 #v[1#8, 2#8, 3#8, 128#8] = .ok (#v[1#8, 2#8, 3#8, 0#8], 3) := by
  decide +kernel

example :
    Pad.bitUnpad 4 #v[0#8, 0#8, 0#8, 0#8] = .error .unwrap := by
  decide +kernel

example :
    Pad.bitUnpad 4 #v[1#8, 2#8, 3#8, 4#8] = .error .unwrap := by
  decide +kernel

example :
    Pad.pkcsPad 4 [] = .ok #v[4#8, 4#8, 4#8, 4#8] := by
  decide +kernel

example :
    Pad.pkcsPad 4 [1#8, 2#8, 3#8] = .ok #v[1#8, 2#8, 3#8, 1#8] := by
  decide +kernel

example :
    Pad.pkcsPad 4 [1#8, 2#8, 3#8, 4#8] = .error .explicit := by
  decide +kernel

example :
    Pad.pkcsPad 4 [1#8, 2#8, 3#8, 4#8, 5#8] = .error .explicit := by
  decide +kernel

example :
    Pad.pkcsUnpad 4 #v[4#8, 4#8, 4#8, 4#8] = .ok 0 := by
  decide +kernel

example :
    Pad.pkcsUnpad 4 #v[1#8, 2#8, 3#8, 1#8] = .ok 3 := by
  decide +kernel

example :
    Pad.pkcsUnpad 4 #v[5#8, 5#8, 5#8, 5#8] = .error .explicit := by
  decide +kernel

/-! src/lib.rs:218-292 -/

example :
    (simpleMode.encryptBlock simpleCipher #v[11#8, 12#8, 14#8, 13#8] #v[1#8, 2#8, 4#8, 3#8]) = .ok (#v[14#8, 10#8,
      14#8, 10#8], #v[14#8, 10#8, 14#8, 10#8]) := by
  decide +kernel

example :
    blockEncrypt (ecb 4) noopCipher () [1#8, 2#8] = ⟨[1#8, 2#8, 2#8, 2#8], .ok ()⟩ := by
  decide +kernel

example :
    blockEncrypt (ecb 4) noopCipher () [1#8, 2#8, 4#8, 3#8] = ⟨[1#8, 2#8, 4#8, 3#8, 4#8, 4#8, 4#8, 4#8], .ok ()⟩ := by
  decide +kernel

example :
    blockEncrypt (ecb 4) simpleCipher () [1#8, 2#8, 4#8, 3#8, 7#8, 8#8] = ⟨[3#8, 4#8, 2#8, 1#8, 2#8, 2#8, 8#8, 7#8],
      .ok ()⟩ := by
  decide +kernel

example :
    blockEncrypt simpleMode noopCipher #v[9#8, 8#8, 7#8, 6#8] [1#8, 2#8, 4#8, 3#8, 7#8, 8#8] = ⟨[8#8, 10#8, 3#8, 5#8,
      15#8, 2#8, 1#8, 7#8], .ok ()⟩ := by
  decide +kernel

/-! src/aes/cipher.rs:215-247, src/aes/expander.rs:149-174, src/aes/sbox.rs:42-89 -/

example :
    Aes.mixColumn 0 (by decide) #v[219#8, 19#8, 83#8, 69#8, 0#8, 0#8, 0#8, 0#8, 0#8, 0#8, 0#8, 0#8, 0#8, 0#8, 0#8,
      0#8] = #v[142#8, 77#8, 161#8, 188#8, 0#8, 0#8, 0#8, 0#8, 0#8, 0#8, 0#8, 0#8, 0#8, 0#8, 0#8, 0#8] := by
  decide +kernel

example :
    Aes.unmixColumn 0 (by decide) #v[142#8, 77#8, 161#8, 188#8, 0#8, 0#8, 0#8, 0#8, 0#8, 0#8, 0#8, 0#8, 0#8, 0#8,
      0#8, 0#8] = #v[219#8, 19#8, 83#8, 69#8, 0#8, 0#8, 0#8, 0#8, 0#8, 0#8, 0#8, 0#8, 0#8, 0#8, 0#8, 0#8] := by
  decide +kernel

example :
    Aes.mixColumn 0 (by decide) #v[1#8, 1#8, 1#8, 1#8, 0#8, 0#8, 0#8, 0#8, 0#8, 0#8, 0#8, 0#8, 0#8, 0#8, 0#8,
      0#8] = #v[1#8, 1#8, 1#8, 1#8, 0#8, 0#8, 0#8, 0#8, 0#8, 0#8, 0#8, 0#8, 0#8, 0#8, 0#8, 0#8] := by
  decide +kernel

example :
    Aes.unmixColumn 0 (by decide) #v[1#8, 1#8, 1#8, 1#8, 0#8, 0#8, 0#8, 0#8, 0#8, 0#8, 0#8, 0#8, 0#8, 0#8, 0#8,
      0#8] = #v[1#8, 1#8, 1#8, 1#8, 0#8, 0#8, 0#8, 0#8, 0#8, 0#8, 0#8, 0#8, 0#8, 0#8, 0#8, 0#8] := by
  decide +kernel

example :
    Aes.mixColumn 0 (by decide) #v[198#8, 198#8, 198#8, 198#8, 0#8, 0#8, 0#8, 0#8, 0#8, 0#8, 0#8, 0#8, 0#8, 0#8, 0#8,
      0#8] = #v[198#8, 198#8, 198#8, 198#8, 0#8, 0#8, 0#8, 0#8, 0#8, 0#8, 0#8, 0#8, 0#8, 0#8, 0#8, 0#8] := by
  decide +kernel

example :
    Aes.unmixColumn 0 (by decide) #v[198#8, 198#8, 198#8, 198#8, 0#8, 0#8, 0#8, 0#8, 0#8, 0#8, 0#8, 0#8, 0#8, 0#8,
      0#8, 0#8] = #v[198#8, 198#8, 198#8, 198#8, 0#8, 0#8, 0#8, 0#8, 0#8, 0#8, 0#8, 0#8, 0#8, 0#8, 0#8, 0#8] := by
  decide +kernel

example :
    Aes.mixColumn 0 (by decide) #v[212#8, 212#8, 212#8, 213#8, 0#8, 0#8, 0#8, 0#8, 0#8, 0#8, 0#8, 0#8, 0#8, 0#8, 0#8,
      0#8] = #v[213#8, 213#8, 215#8, 214#8, 0#8, 0#8, 0#8, 0#8, 0#8, 0#8, 0#8, 0#8, 0#8, 0#8, 0#8, 0#8] := by
  decide +kernel

example :
    Aes.unmixColumn 0 (by decide) #v[213#8, 213#8, 215#8, 214#8, 0#8, 0#8, 0#8, 0#8, 0#8, 0#8, 0#8, 0#8, 0#8, 0#8,
      0#8, 0#8] = #v[212#8, 212#8, 212#8, 213#8, 0#8, 0#8, 0#8, 0#8, 0#8, 0#8, 0#8, 0#8, 0#8, 0#8, 0#8, 0#8] := by
  decide +kernel

example :
    Aes.mixColumn 0 (by decide) #v[45#8, 38#8, 49#8, 76#8, 0#8, 0#8, 0#8, 0#8, 0#8, 0#8, 0#8, 0#8, 0#8, 0#8, 0#8,
      0#8] = #v[77#8, 126#8, 189#8, 248#8, 0#8, 0#8, 0#8, 0#8, 0#8, 0#8, 0#8, 0#8, 0#8, 0#8, 0#8, 0#8] := by
  decide +kernel

example :
    Aes.unmixColumn 0 (by decide) #v[77#8, 126#8, 189#8, 248#8, 0#8, 0#8, 0#8, 0#8, 0#8, 0#8, 0#8, 0#8, 0#8, 0#8,
      0#8, 0#8] = #v[45#8, 38#8, 49#8, 76#8, 0#8, 0#8, 0#8, 0#8, 0#8, 0#8, 0#8, 0#8, 0#8, 0#8, 0#8, 0#8] := by
  decide +kernel

example :
    Aes.calculateRoundConstants 11 = .ok #v[0#8, 1#8, 2#8, 4#8, 8#8, 16#8, 32#8, 64#8, 128#8, 27#8, 54#8] := by
  decide +kernel

example :
    Aes.rotateWord #v[1#8, 2#8, 3#8, 4#8] = #v[2#8, 3#8, 4#8, 1#8] := by
  decide +kernel

example :
    Aes.sub 0#8 = 99#8 ∧ Aes.unsub 99#8 = 0#8 := by
  decide +kernel

example :
    Aes.sub 1#8 = 124#8 ∧ Aes.unsub 124#8 = 1#8 := by
  decide +kernel

example :
    Aes.sub 2#8 = 119#8 ∧ Aes.unsub 119#8 = 2#8 := by
  decide +kernel

example :
    Aes.sub 3#8 = 123#8 ∧ Aes.unsub 123#8 = 3#8 := by
  decide +kernel

example :
    Aes.sub 16#8 = 202#8 ∧ Aes.unsub 202#8 = 16#8 := by
  decide +kernel

example :
    Aes.sub 171#8 = 98#8 ∧ Aes.unsub 98#8 = 171#8 := by
  decide +kernel

example :
    Aes.sub 240#8 = 140#8 ∧ Aes.unsub 140#8 = 240#8 := by
  decide +kernel

example :
    Aes.sub 255#8 = 22#8 ∧ Aes.unsub 22#8 = 255#8 := by
  decide +kernel

example :
    Aes.unsub 0#8 = 82#8 := by
  decide +kernel

example :
    Aes.unsub 1#8 = 9#8 := by
  decide +kernel

example :
    Aes.unsub 2#8 = 106#8 := by
  decide +kernel

example :
    Aes.unsub 3#8 = 213#8 := by
  decide +kernel

example :
    Aes.unsub 16#8 = 124#8 := by
  decide +kernel

example :
    Aes.unsub 171#8 = 14#8 := by
  decide +kernel

example :
    Aes.unsub 240#8 = 23#8 := by
  decide +kernel

example :
    Aes.unsub 255#8 = 125#8 := by
  decide +kernel

/-! tests/rc.rs:51-65, src/rc/rc4.rs:63-91 -/

example :
    (Rc4.new [87#8, 105#8, 107#8, 105#8] >>= fun k => Rc4.encrypt k [112#8, 101#8, 100#8, 105#8, 97#8]) = .ok [16#8,
      33#8, 191#8, 4#8, 32#8] := by
  decide +kernel

example :
    ((Rc4.new [75#8, 101#8, 121#8]).map fun k => let a := streamEncrypt Rc4.next k [80#8, 108#8, 97#8, 105#8,
      110#8]; a.yielded ++ (streamEncrypt Rc4.next a.keys [116#8, 101#8, 120#8, 116#8]).yielded) = .ok [187#8, 243#8,
      22#8, 232#8, 217#8, 64#8, 175#8, 10#8, 211#8] := by
  decide +kernel

/-! tests/rc.rs:67-84, src/rc/rc5.rs:113-144 -/

example :
    ((Rc5.new [145#8, 95#8, 70#8, 25#8, 190#8, 65#8, 178#8, 81#8, 99#8, 85#8, 165#8, 1#8, 16#8, 169#8, 206#8,
      145#8] 12#8).map fun k => (blockEncrypt (ecb 8) (Rc5.cipher k) () [33#8, 165#8, 219#8, 238#8, 21#8, 75#8,
      143#8, 109#8], blockDecrypt (ecb 8) (Rc5.cipher k) () [247#8, 192#8, 19#8, 172#8, 91#8, 43#8, 137#8, 82#8,
      210#8, 84#8, 149#8, 71#8, 95#8, 241#8, 132#8, 138#8])) = .ok (⟨[247#8, 192#8, 19#8, 172#8, 91#8, 43#8, 137#8,
      82#8, 210#8, 84#8, 149#8, 71#8, 95#8, 241#8, 132#8, 138#8], .ok ()⟩, ⟨[33#8, 165#8, 219#8, 238#8, 21#8, 75#8,
      143#8, 109#8], .ok ()⟩) := by
  decide +kernel

example :
    (Rc5.new [0#8, 0#8, 0#8, 0#8, 0#8, 0#8, 0#8, 0#8, 0#8, 0#8, 0#8, 0#8, 0#8, 0#8, 0#8,
      0#8] 12#8 >>= fun k => Rc5.encrypt32 k 0x00000000#32 0x00000000#32) = .ok (0xEEDBA521#32, 0x6D8F4B15#32) := by
  decide +kernel

example :
    (Rc5.new [145#8, 95#8, 70#8, 25#8, 190#8, 65#8, 178#8, 81#8, 99#8, 85#8, 165#8, 1#8, 16#8, 169#8, 206#8,
      145#8] 12#8 >>= fun k => Rc5.encrypt32 k 0xEEDBA521#32 0x6D8F4B15#32) = .ok (0xAC13C0F7#32, 0x52892B5B#32) := by
  decide +kernel

example :
    (Rc5.new [120#8, 51#8, 72#8, 231#8, 90#8, 235#8, 15#8, 47#8, 215#8, 177#8, 105#8, 187#8, 141#8, 193#8, 103#8,
      135#8] 12#8 >>= fun k => Rc5.encrypt32 k 0xAC13C0F7#32 0x52892B5B#32) = .ok (0xB7B3422F#32, 0x92FC6903#32) := by
  decide +kernel

example :
    (Rc5.new [220#8, 73#8, 219#8, 19#8, 117#8, 165#8, 88#8, 79#8, 100#8, 133#8, 180#8, 19#8, 181#8, 241#8, 43#8,
      175#8] 12#8 >>= fun k => Rc5.encrypt32 k 0xB7B3422F#32 0x92FC6903#32) = .ok (0xB278C165#32, 0xCC97D184#32) := by
  decide +kernel

example :
    (Rc5.new [82#8, 105#8, 241#8, 73#8, 212#8, 27#8, 160#8, 21#8, 36#8, 151#8, 87#8, 77#8, 127#8, 21#8, 49#8,
      37#8] 12#8 >>= fun k => Rc5.encrypt32 k 0xB278C165#32 0xCC97D184#32) = .ok (0x15E444EB#32, 0x249831DA#32) := by
  decide +kernel

/-! src/big/uint.rs:305-407 -/

example :
    ((Big.fromU128 85968058271978839505040#128).map Big.toBeBytes) = .ok [18#8, 52#8, 86#8, 120#8, 144#8, 18#8, 52#8,
      86#8, 120#8, 144#8] := by
  decide +kernel

example :
    ((Big.fromU128 85968058271978839505040#128) >>= Big.bitsUsed) = .ok 77 := by
  decide +kernel

example :
    ((Big.fromBeBytes [18#8, 52#8, 86#8, 120#8, 144#8, 18#8, 52#8, 86#8, 120#8,
      144#8]) >>= Big.asU128) = .ok (.ok 85968058271978839505040#128) := by
  decide +kernel

example :
    ((Big.fromBeBytes [18#8, 52#8, 86#8, 120#8, 144#8, 18#8, 52#8, 86#8, 120#8, 144#8, 18#8, 52#8, 86#8, 120#8,
      144#8, 18#8, 52#8, 86#8]) >>= Big.asU128) = .ok (.error 18) := by
  decide +kernel

example :
    ((Big.fromBeBytes [0#8, 0#8, 18#8, 52#8, 86#8, 120#8, 144#8, 18#8, 52#8, 86#8, 120#8,
      144#8]).map Big.toBeBytes) = .ok [18#8, 52#8, 86#8, 120#8, 144#8, 18#8, 52#8, 86#8, 120#8, 144#8] := by
  decide +kernel

example :
    (do Big.sub id (← (Big.fromU128 13#128)) (← (Big.fromU128 5#128))) = (Big.fromU128 8#128) := by
  decide +kernel

example :
    (do Big.sub id (← (Big.fromU128 13000000000000#128)) (← (Big.fromU128 5000000000000#128))) = (Big.fromU128 8000000000000#128) := by
  decide +kernel

example :
    (do Big.sub id (← (Big.fromBeBytes [13#8, 12#8, 11#8, 10#8])) (← (Big.fromBeBytes [6#8, 7#8, 8#8,
      9#8]))) = (Big.fromBeBytes [7#8, 5#8, 3#8, 1#8]) := by
  decide +kernel

example :
    (do Big.sub id (← (Big.fromBeBytes [13#8, 12#8, 11#8, 10#8])) (← (Big.fromBeBytes [7#8, 8#8,
      9#8]))) = (Big.fromBeBytes [13#8, 5#8, 3#8, 1#8]) := by
  decide +kernel

example :
    (do Big.sub id (← (Big.fromBeBytes [13#8, 12#8, 11#8, 10#8])) (← (Big.fromBeBytes [13#8, 7#8, 8#8,
      9#8]))) = (Big.fromBeBytes [5#8, 3#8, 1#8]) := by
  decide +kernel

example :
    (do Big.sub id (← (Big.fromBeBytes [13#8, 12#8, 11#8,
      10#8])) (← (Big.fromBeBytes [9#8]))) = (Big.fromBeBytes [13#8, 12#8, 11#8, 1#8]) := by
  decide +kernel

example :
    (do Big.sub id (← (Big.fromBeBytes [13#8, 12#8, 11#8, 10#8])) (← (Big.fromBeBytes [13#8, 12#8, 11#8,
      10#8]))) = (Big.fromBeBytes []) := by
  decide +kernel

example :
    (do Big.sub id (← (Big.fromBeBytes [13#8, 12#8, 11#8,
      10#8])) (← (Big.fromBeBytes [11#8]))) = (Big.fromBeBytes [13#8, 12#8, 10#8, 255#8]) := by
  decide +kernel

/-! src/rsa/mod.rs:218-375, tests/rsa.rs:6-10 -/

example :
    (do Rsa.mulMod id (← (Big.fromU128 2#128)) (← (Big.fromU128 3#128)) (← (Big.fromU128 10000#128))) = (Big.fromU128 6#128) := by
  decide +kernel

example :
    (do Rsa.mulMod id (← (Big.fromU128 2#128)) (← (Big.fromU128 3#128)) (← (Big.fromU128 7#128))) = (Big.fromU128 6#128) := by
  decide +kernel

example :
    (do Rsa.mulMod id (← (Big.fromU128 2#128)) (← (Big.fromU128 3#128)) (← (Big.fromU128 3#128))) = (Big.fromU128 0#128) := by
  decide +kernel

example :
    (do Rsa.mulMod id (← (Big.fromU128 2#128)) (← (Big.fromU128 30#128)) (← (Big.fromU128 1000000000000000#128))) = (Big.fromU128 60#128) := by
  decide +kernel

example :
    (do Rsa.mulMod id (← (Big.fromU128 2#128)) (← (Big.fromU128 30#128)) (← (Big.fromU128 10#128))) = (Big.fromU128 0#128) := by
  decide +kernel

example :
    (do Rsa.powMod id (← (Big.fromU128 2#128)) (← (Big.fromU128 3#128)) (← (Big.fromU128 10000#128))) = (Big.fromU128 8#128) := by
  decide +kernel

example :
    (do Rsa.powMod id (← (Big.fromU128 2#128)) (← (Big.fromU128 3#128)) (← (Big.fromU128 7#128))) = (Big.fromU128 1#128) := by
  decide +kernel

example :
    (do Rsa.powMod id (← (Big.fromU128 2#128)) (← (Big.fromU128 3#128)) (← (Big.fromU128 3#128))) = (Big.fromU128 2#128) := by
  decide +kernel

example :
    (do Rsa.powMod id (← (Big.fromU128 2#128)) (← (Big.fromU128 30#128)) (← (Big.fromU128 1000000000000000#128))) = (Big.fromU128 1073741824#128) := by
  decide +kernel

example :
    (do Rsa.powMod id (← (Big.fromU128 2#128)) (← (Big.fromU128 30#128)) (← (Big.fromU128 10000#128))) = (Big.fromU128 1824#128) := by
  decide +kernel

example :
    Rsa.inverse 1 5 = .ok (some 1) := by
  decide +kernel

example :
    Rsa.inverse 2 5 = .ok (some 3) := by
  decide +kernel

example :
    Rsa.inverse 3 5 = .ok (some 2) := by
  decide +kernel

example :
    Rsa.inverse 4 5 = .ok (some 4) := by
  decide +kernel

example :
    Rsa.inverse 1 8 = .ok (some 1) := by
  decide +kernel

example :
    Rsa.inverse 2 8 = .ok none := by
  decide +kernel

example :
    Rsa.inverse 3 8 = .ok (some 3) := by
  decide +kernel

example :
    Rsa.inverse 4 8 = .ok none := by
  decide +kernel

example :
    Rsa.inverse 5 8 = .ok (some 5) := by
  decide +kernel

example :
    Rsa.inverse 6 8 = .ok none := by
  decide +kernel

example :
    Rsa.inverse 7 8 = .ok (some 7) := by
  decide +kernel

example :
    (do Rsa.createKeys (← (Big.fromU128 61#128)) (← (Big.fromU128 53#128)) (← (Big.fromU128 17#128))) = (do return (⟨← (Big.fromU128 3233#128), ← (Big.fromU128 413#128)⟩, ⟨← (Big.fromU128 3233#128), ← (Big.fromU128 17#128)⟩)) := by
  decide +kernel

example :
    (do let (a,
      b) ← Rsa.createKeys (← (Big.fromU128 7#128)) (← (Big.fromU128 11#128)) (← (Big.fromU128 17#128)); return (← Big.asU128 a.d, ← Big.asU128 b.n, ← Big.asU128 b.e)) = .ok (.ok 23#128, .ok 77#128, .ok 17#128) := by
  decide +kernel

example :
    (do let (a,
      b) ← Rsa.createKeys (← (Big.fromU128 61#128)) (← (Big.fromU128 53#128)) (← (Big.fromU128 17#128)); let c ← Rsa.encrypt id (.ofPrivate a) (← (Big.fromBeBytes [97#8])); Rsa.decrypt id (.ofPublic b) c) = (Big.fromBeBytes [97#8]) := by
  decide +kernel

/-! src/pem/asn1.rs:80-98 -/

example :
    Asn1.tryFrom [48#8, 3#8, 2#8, 1#8, 9#8] = .ok (.ok (.sequence [.integer [9#8]])) := by
  rfl

example :
    Asn1.tryFrom [48#8, 11#8, 2#8, 1#8, 4#8, 48#8, 6#8, 2#8, 4#8, 6#8, 7#8, 8#8,
      9#8] = .ok (.ok (.sequence [.integer [4#8], .sequence [.integer [6#8, 7#8, 8#8, 9#8]]])) := by
  rfl

/-! src/pem/mod.rs:111-350 -/

example :
    Pem.decodePem "-----BEGIN ABC-----\nc29tZSBkYXRh\n-----END ABC-----".toList = .ok ⟨"ABC".toList, [115#8, 111#8, 109#8, 101#8, 32#8, 100#8, 97#8, 116#8, 97#8]⟩ := by
  decide +kernel

example :
    Pem.decodePem "-----BEGIN ABC DEF-----\nc29tZSBkYXRh\n-----END ABC DEF-----".toList = .ok ⟨"ABC DEF".toList, [115#8, 111#8, 109#8, 101#8, 32#8, 100#8, 97#8, 116#8, 97#8]⟩ := by
  decide +kernel

example :
    Pem.decodePem "-----BEGIN ABC-----\nc29t\nZSBkYX\nRh\n-----END ABC-----".toList = .ok ⟨"ABC".toList, [115#8, 111#8, 109#8, 101#8, 32#8, 100#8, 97#8, 116#8, 97#8]⟩ := by
  decide +kernel

example :
    Pem.decodePem "\n\n        -----BEGIN ABC-----     \n            c29tZS\n    BkYXRh      \n                -----END ABC-----   \n                ".toList = .ok ⟨"ABC".toList, [115#8, 111#8, 109#8, 101#8, 32#8, 100#8, 97#8, 116#8, 97#8]⟩ := by
  decide +kernel

example :
    Pem.decodePem "\nsome info\nmore stuff\n\nhello\n\n-----BEGIN ABC-----\nc29tZSBkYXRh\n-----END ABC-----".toList = .ok ⟨"ABC".toList, [115#8, 111#8, 109#8, 101#8, 32#8, 100#8, 97#8, 116#8, 97#8]⟩ := by
  decide +kernel

example :
    Pem.decodePem "\n-----BEGIN ABC-----\nc29tZSBkYXRh\n-----END ABC-----\n\nsome info\nmore stuff\n\nhello\n".toList = .ok ⟨"ABC".toList, [115#8, 111#8, 109#8, 101#8, 32#8, 100#8, 97#8, 116#8, 97#8]⟩ := by
  decide +kernel

example :
    Pem.decodePem "-----BEGIN ABC-----\nc29tZSBkYXRhIDEKc29tZSBkYXRhIDIKc29tZSBkYXRhIDMKc29tZSBkYXRhIDQKc29tZSBkYXRhIDUKc29tZSBkYXRhIDY=\n-----END ABC-----".toList = .ok ⟨"ABC".toList, [115#8, 111#8, 109#8, 101#8, 32#8, 100#8, 97#8, 116#8, 97#8, 32#8, 49#8, 10#8, 115#8, 111#8, 109#8, 101#8, 32#8, 100#8, 97#8, 116#8, 97#8, 32#8, 50#8, 10#8, 115#8, 111#8, 109#8, 101#8, 32#8, 100#8, 97#8, 116#8, 97#8, 32#8, 51#8, 10#8, 115#8, 111#8, 109#8, 101#8, 32#8, 100#8, 97#8, 116#8, 97#8, 32#8, 52#8, 10#8, 115#8, 111#8, 109#8, 101#8, 32#8, 100#8, 97#8, 116#8, 97#8, 32#8, 53#8, 10#8, 115#8, 111#8, 109#8, 101#8, 32#8, 100#8, 97#8, 116#8, 97#8, 32#8, 54#8]⟩ := by
  decide +kernel

example :
    (Pem.decodePem "\nc29tZSBkYXRh\n-----END ABC-----\n".toList).toOption = none := by
  decide +kernel

example :
    (Pem.decodePem "\n-----BEGIN ABC-----\nc29tZSBkYXRh\n".toList).toOption = none := by
  decide +kernel

example :
    (Pem.decodePem "\n-----BEGIN ABC-----\n-----BEGIN ABC-----\nc29tZSBkYXRh\n-----END ABC-----\n".toList).toOption = none := by
  decide +kernel

example :
    (Pem.decodePem "\n-----BEGIN ABC-----\nc29tZSBkYXRh\n-----END ABC-----\n-----END ABC-----\n".toList).toOption = none := by
  decide +kernel

example :
    (Pem.decodePem "\n-----END ABC-----\nc29tZSBkYXRh\n-----BEGIN ABC-----\n".toList).toOption = none := by
  decide +kernel

example :
    (Pem.decodePem "\n-----BEGIN ABC-----\nc29tZSBkYXRh\n-----END DEF-----\n".toList).toOption = none := by
  decide +kernel

example :
    Pem.display ⟨"ABC DEF".toList, [115#8, 111#8, 109#8, 101#8, 32#8, 100#8, 97#8, 116#8, 97#8, 32#8, 49#8, 10#8, 115#8, 111#8, 109#8, 101#8, 32#8, 100#8, 97#8, 116#8, 97#8, 32#8, 50#8, 10#8, 115#8, 111#8, 109#8, 101#8, 32#8, 100#8, 97#8, 116#8, 97#8, 32#8, 51#8, 10#8, 115#8, 111#8, 109#8, 101#8, 32#8, 100#8, 97#8, 116#8, 97#8, 32#8, 52#8, 10#8, 115#8, 111#8, 109#8, 101#8, 32#8, 100#8, 97#8, 116#8, 97#8, 32#8, 53#8, 10#8, 115#8, 111#8, 109#8, 101#8, 32#8, 100#8, 97#8, 116#8, 97#8, 32#8, 54#8]⟩ = "-----BEGIN ABC DEF-----\nc29tZSBkYXRhIDEKc29tZSBkYXRhIDIKc29tZSBkYXRhIDMKc29tZSBkYXRhIDQK\nc29tZSBkYXRhIDUKc29tZSBkYXRhIDY=\n-----END ABC DEF-----".toList := by
  decide +kernel

example :
    Pem.display ⟨"ABC DEF".toList, [115#8, 111#8, 109#8, 101#8, 32#8, 100#8, 97#8, 116#8, 97#8, 32#8, 49#8, 10#8, 115#8, 111#8, 109#8, 101#8, 32#8, 100#8, 97#8, 116#8, 97#8, 32#8, 50#8, 10#8, 115#8, 111#8, 109#8, 101#8, 32#8, 100#8, 97#8, 116#8, 97#8, 32#8, 51#8, 10#8, 115#8, 111#8, 109#8, 101#8, 32#8, 100#8, 97#8, 116#8, 97#8, 32#8, 52#8, 10#8, 115#8, 111#8, 109#8, 101#8, 32#8, 100#8, 97#8, 116#8, 97#8, 32#8, 49#8, 10#8, 115#8, 111#8, 109#8, 101#8, 32#8, 100#8, 97#8, 116#8, 97#8, 32#8, 50#8, 10#8, 115#8, 111#8, 109#8, 101#8, 32#8, 100#8, 97#8, 116#8, 97#8, 32#8, 51#8, 10#8, 115#8, 111#8, 109#8, 101#8, 32#8, 100#8, 97#8, 116#8, 97#8, 32#8, 52#8, 10#8]⟩ = "-----BEGIN ABC DEF-----\nc29tZSBkYXRhIDEKc29tZSBkYXRhIDIKc29tZSBkYXRhIDMKc29tZSBkYXRhIDQK\nc29tZSBkYXRhIDEKc29tZSBkYXRhIDIKc29tZSBkYXRhIDMKc29tZSBkYXRhIDQK\n-----END ABC DEF-----".toList := by
  decide +kernel

end Verif.Validation
