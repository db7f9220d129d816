import Verif.Model.Sha
import Verif.Model.Md
import Verif.Model.Oaep

/-! # The project's own test cases, run on the model by the kernel

These are tests, not proofs of properties: they check the transcription of the code into the model on
the inputs and expected outputs that the project's tests use. No property in `MANIFEST.json` rests on
them. The test cases that are slow in the kernel (AES blocks, RC2, MD2, SHA-384 and SHA-512, the larger
RSA numbers) are left out. -/

namespace Verif.Validation
open Verif Verif.Model


/-! tests/md.rs:11-53, tests/sha1.rs:4-27, tests/sha2.rs:4-47 -/

example :
    Md4.hash [] = .ok #v[49#8, 214#8, 207#8, 224#8, 209#8, 106#8, 233#8, 49#8, 183#8, 60#8, 89#8, 215#8, 224#8,
      192#8, 137#8, 192#8] := by
  decide +kernel

example :
    Md4.hash [97#8] = .ok #v[189#8, 229#8, 44#8, 179#8, 29#8, 227#8, 62#8, 70#8, 36#8, 94#8, 5#8, 251#8, 219#8,
      214#8, 251#8, 36#8] := by
  decide +kernel

example :
    Md4.hash [65#8, 66#8, 67#8, 68#8, 69#8, 70#8, 71#8, 72#8, 73#8, 74#8, 75#8, 76#8, 77#8, 78#8, 79#8, 80#8, 81#8,
      82#8, 83#8, 84#8, 85#8, 86#8, 87#8, 88#8, 89#8, 90#8, 97#8, 98#8, 99#8, 100#8, 101#8, 102#8, 103#8, 104#8,
      105#8, 106#8, 107#8, 108#8, 109#8, 110#8, 111#8, 112#8, 113#8, 114#8, 115#8, 116#8, 117#8, 118#8, 119#8, 120#8,
      121#8, 122#8, 48#8, 49#8, 50#8, 51#8, 52#8, 53#8, 54#8, 55#8, 56#8, 57#8] = .ok #v[4#8, 63#8, 133#8, 130#8,
      242#8, 65#8, 219#8, 53#8, 28#8, 230#8, 39#8, 225#8, 83#8, 231#8, 240#8, 228#8] := by
  decide +kernel

example :
    Md4.hash [49#8, 50#8, 51#8, 52#8, 53#8, 54#8, 55#8, 56#8, 57#8, 48#8, 49#8, 50#8, 51#8, 52#8, 53#8, 54#8, 55#8,
      56#8, 57#8, 48#8, 49#8, 50#8, 51#8, 52#8, 53#8, 54#8, 55#8, 56#8, 57#8, 48#8, 49#8, 50#8, 51#8, 52#8, 53#8,
      54#8, 55#8, 56#8, 57#8, 48#8, 49#8, 50#8, 51#8, 52#8, 53#8, 54#8, 55#8, 56#8, 57#8, 48#8, 49#8, 50#8, 51#8,
      52#8, 53#8, 54#8, 55#8, 56#8, 57#8, 48#8, 49#8, 50#8, 51#8, 52#8, 53#8, 54#8, 55#8, 56#8, 57#8, 48#8, 49#8,
      50#8, 51#8, 52#8, 53#8, 54#8, 55#8, 56#8, 57#8, 48#8] = .ok #v[227#8, 59#8, 77#8, 220#8, 156#8, 56#8, 242#8,
      25#8, 156#8, 62#8, 123#8, 22#8, 79#8, 204#8, 5#8, 54#8] := by
  decide +kernel

example :
    Md5.hash [] = .ok #v[212#8, 29#8, 140#8, 217#8, 143#8, 0#8, 178#8, 4#8, 233#8, 128#8, 9#8, 152#8, 236#8, 248#8,
      66#8, 126#8] := by
  decide +kernel

example :
    Md5.hash [97#8] = .ok #v[12#8, 193#8, 117#8, 185#8, 192#8, 241#8, 182#8, 168#8, 49#8, 195#8, 153#8, 226#8, 105#8,
      119#8, 38#8, 97#8] := by
  decide +kernel

example :
    Md5.hash [65#8, 66#8, 67#8, 68#8, 69#8, 70#8, 71#8, 72#8, 73#8, 74#8, 75#8, 76#8, 77#8, 78#8, 79#8, 80#8, 81#8,
      82#8, 83#8, 84#8, 85#8, 86#8, 87#8, 88#8, 89#8, 90#8, 97#8, 98#8, 99#8, 100#8, 101#8, 102#8, 103#8, 104#8,
      105#8, 106#8, 107#8, 108#8, 109#8, 110#8, 111#8, 112#8, 113#8, 114#8, 115#8, 116#8, 117#8, 118#8, 119#8, 120#8,
      121#8, 122#8, 48#8, 49#8, 50#8, 51#8, 52#8, 53#8, 54#8, 55#8, 56#8, 57#8] = .ok #v[209#8, 116#8, 171#8, 152#8,
      210#8, 119#8, 217#8, 245#8, 165#8, 97#8, 28#8, 44#8, 159#8, 65#8, 157#8, 159#8] := by
  decide +kernel

example :
    Md5.hash [49#8, 50#8, 51#8, 52#8, 53#8, 54#8, 55#8, 56#8, 57#8, 48#8, 49#8, 50#8, 51#8, 52#8, 53#8, 54#8, 55#8,
      56#8, 57#8, 48#8, 49#8, 50#8, 51#8, 52#8, 53#8, 54#8, 55#8, 56#8, 57#8, 48#8, 49#8, 50#8, 51#8, 52#8, 53#8,
      54#8, 55#8, 56#8, 57#8, 48#8, 49#8, 50#8, 51#8, 52#8, 53#8, 54#8, 55#8, 56#8, 57#8, 48#8, 49#8, 50#8, 51#8,
      52#8, 53#8, 54#8, 55#8, 56#8, 57#8, 48#8, 49#8, 50#8, 51#8, 52#8, 53#8, 54#8, 55#8, 56#8, 57#8, 48#8, 49#8,
      50#8, 51#8, 52#8, 53#8, 54#8, 55#8, 56#8, 57#8, 48#8] = .ok #v[87#8, 237#8, 244#8, 162#8, 43#8, 227#8, 201#8,
      85#8, 172#8, 73#8, 218#8, 46#8, 33#8, 7#8, 182#8, 122#8] := by
  decide +kernel

example :
    Sha.sha1 [] = .ok #v[218#8, 57#8, 163#8, 238#8, 94#8, 107#8, 75#8, 13#8, 50#8, 85#8, 191#8, 239#8, 149#8, 96#8,
      24#8, 144#8, 175#8, 216#8, 7#8, 9#8] := by
  decide +kernel

example :
    Sha.sha1 [65#8] = .ok #v[109#8, 205#8, 76#8, 226#8, 61#8, 136#8, 226#8, 238#8, 149#8, 104#8, 186#8, 84#8, 108#8,
      0#8, 124#8, 99#8, 217#8, 19#8, 28#8, 27#8] := by
  decide +kernel

example :
    Sha.sha1 [84#8, 104#8, 101#8, 32#8, 113#8, 117#8, 105#8, 99#8, 107#8, 32#8, 98#8, 114#8, 111#8, 119#8, 110#8,
      32#8, 102#8, 111#8, 120#8, 32#8, 106#8, 117#8, 109#8, 112#8, 115#8, 32#8, 111#8, 118#8, 101#8, 114#8, 32#8,
      116#8, 104#8, 101#8, 32#8, 108#8, 97#8, 122#8, 121#8, 32#8, 100#8, 111#8, 103#8] = .ok #v[47#8, 212#8, 225#8,
      198#8, 122#8, 45#8, 40#8, 252#8, 237#8, 132#8, 158#8, 225#8, 187#8, 118#8, 231#8, 57#8, 27#8, 147#8, 235#8,
      18#8] := by
  decide +kernel

example :
    Sha.sha224 [] = .ok #v[209#8, 74#8, 2#8, 140#8, 42#8, 58#8, 43#8, 201#8, 71#8, 97#8, 2#8, 187#8, 40#8, 130#8,
      52#8, 196#8, 21#8, 162#8, 176#8, 31#8, 130#8, 142#8, 166#8, 42#8, 197#8, 179#8, 228#8, 47#8] := by
  decide +kernel

example :
    Sha.sha224 [84#8, 104#8, 101#8, 32#8, 113#8, 117#8, 105#8, 99#8, 107#8, 32#8, 98#8, 114#8, 111#8, 119#8, 110#8,
      32#8, 102#8, 111#8, 120#8, 32#8, 106#8, 117#8, 109#8, 112#8, 115#8, 32#8, 111#8, 118#8, 101#8, 114#8, 32#8,
      116#8, 104#8, 101#8, 32#8, 108#8, 97#8, 122#8, 121#8, 32#8, 100#8, 111#8, 103#8] = .ok #v[115#8, 14#8, 16#8,
      155#8, 215#8, 168#8, 163#8, 43#8, 28#8, 185#8, 217#8, 160#8, 154#8, 162#8, 50#8, 93#8, 36#8, 48#8, 88#8, 125#8,
      219#8, 192#8, 195#8, 139#8, 173#8, 145#8, 21#8, 37#8] := by
  decide +kernel

example :
    Sha.sha256 [] = .ok #v[227#8, 176#8, 196#8, 66#8, 152#8, 252#8, 28#8, 20#8, 154#8, 251#8, 244#8, 200#8, 153#8,
      111#8, 185#8, 36#8, 39#8, 174#8, 65#8, 228#8, 100#8, 155#8, 147#8, 76#8, 164#8, 149#8, 153#8, 27#8, 120#8,
      82#8, 184#8, 85#8] := by
  decide +kernel

/-! src/rsa/mgf.rs:33-54 -/

example :
    Oaep.mgf1 Sha.sha1 [102#8, 111#8, 111#8] 3 = .ok [26#8, 201#8, 7#8] := by
  decide +kernel

example :
    Oaep.mgf1 Sha.sha1 [102#8, 111#8, 111#8] 5 = .ok [26#8, 201#8, 7#8, 92#8, 212#8] := by
  decide +kernel

example :
    Oaep.mgf1 Sha.sha1 [98#8, 97#8, 114#8] 5 = .ok [188#8, 12#8, 101#8, 94#8, 1#8] := by
  decide +kernel

/-! src/sha/pad.rs:23-60 -/

example :
    Sha.sha1Padding [] 0 = .ok (#v[128#8, 0#8, 0#8, 0#8, 0#8, 0#8, 0#8, 0#8, 0#8, 0#8, 0#8, 0#8, 0#8, 0#8, 0#8, 0#8,
      0#8, 0#8, 0#8, 0#8, 0#8, 0#8, 0#8, 0#8, 0#8, 0#8, 0#8, 0#8, 0#8, 0#8, 0#8, 0#8, 0#8, 0#8, 0#8, 0#8, 0#8, 0#8,
      0#8, 0#8, 0#8, 0#8, 0#8, 0#8, 0#8, 0#8, 0#8, 0#8, 0#8, 0#8, 0#8, 0#8, 0#8, 0#8, 0#8, 0#8, 0#8, 0#8, 0#8, 0#8,
      0#8, 0#8, 0#8, 0#8], none) := by
  decide +kernel

example :
    Sha.sha1Padding (List.replicate 60 0#8) 0 = .ok (#v[0#8, 0#8, 0#8, 0#8, 0#8, 0#8, 0#8, 0#8, 0#8, 0#8, 0#8, 0#8,
      0#8, 0#8, 0#8, 0#8, 0#8, 0#8, 0#8, 0#8, 0#8, 0#8, 0#8, 0#8, 0#8, 0#8, 0#8, 0#8, 0#8, 0#8, 0#8, 0#8, 0#8, 0#8,
      0#8, 0#8, 0#8, 0#8, 0#8, 0#8, 0#8, 0#8, 0#8, 0#8, 0#8, 0#8, 0#8, 0#8, 0#8, 0#8, 0#8, 0#8, 0#8, 0#8, 0#8, 0#8,
      0#8, 0#8, 0#8, 0#8, 128#8, 0#8, 0#8, 0#8], some #v[0#8, 0#8, 0#8, 0#8, 0#8, 0#8, 0#8, 0#8, 0#8, 0#8, 0#8, 0#8,
      0#8, 0#8, 0#8, 0#8, 0#8, 0#8, 0#8, 0#8, 0#8, 0#8, 0#8, 0#8, 0#8, 0#8, 0#8, 0#8, 0#8, 0#8, 0#8, 0#8, 0#8, 0#8,
      0#8, 0#8, 0#8, 0#8, 0#8, 0#8, 0#8, 0#8, 0#8, 0#8, 0#8, 0#8, 0#8, 0#8, 0#8, 0#8, 0#8, 0#8, 0#8, 0#8, 0#8, 0#8,
      0#8, 0#8, 0#8, 0#8, 0#8, 0#8, 0#8, 0#8]) := by
  decide +kernel

example :
    Sha.sha1Padding [] 123456789 = .ok (#v[128#8, 0#8, 0#8, 0#8, 0#8, 0#8, 0#8, 0#8, 0#8, 0#8, 0#8, 0#8, 0#8, 0#8,
      0#8, 0#8, 0#8, 0#8, 0#8, 0#8, 0#8, 0#8, 0#8, 0#8, 0#8, 0#8, 0#8, 0#8, 0#8, 0#8, 0#8, 0#8, 0#8, 0#8, 0#8, 0#8,
      0#8, 0#8, 0#8, 0#8, 0#8, 0#8, 0#8, 0#8, 0#8, 0#8, 0#8, 0#8, 0#8, 0#8, 0#8, 0#8, 0#8, 0#8, 0#8, 0#8, 0#8, 0#8,
      0#8, 0#8, 58#8, 222#8, 104#8, 168#8], none) := by
  decide +kernel

example :
    Sha.sha1Padding (List.replicate 60 0#8) 123456789 = .ok (#v[0#8, 0#8, 0#8, 0#8, 0#8, 0#8, 0#8, 0#8, 0#8, 0#8,
      0#8, 0#8, 0#8, 0#8, 0#8, 0#8, 0#8, 0#8, 0#8, 0#8, 0#8, 0#8, 0#8, 0#8, 0#8, 0#8, 0#8, 0#8, 0#8, 0#8, 0#8, 0#8,
      0#8, 0#8, 0#8, 0#8, 0#8, 0#8, 0#8, 0#8, 0#8, 0#8, 0#8, 0#8, 0#8, 0#8, 0#8, 0#8, 0#8, 0#8, 0#8, 0#8, 0#8, 0#8,
      0#8, 0#8, 0#8, 0#8, 0#8, 0#8, 128#8, 0#8, 0#8, 0#8], some #v[0#8, 0#8, 0#8, 0#8, 0#8, 0#8, 0#8, 0#8, 0#8, 0#8,
      0#8, 0#8, 0#8, 0#8, 0#8, 0#8, 0#8, 0#8, 0#8, 0#8, 0#8, 0#8, 0#8, 0#8, 0#8, 0#8, 0#8, 0#8, 0#8, 0#8, 0#8, 0#8,
      0#8, 0#8, 0#8, 0#8, 0#8, 0#8, 0#8, 0#8, 0#8, 0#8, 0#8, 0#8, 0#8, 0#8, 0#8, 0#8, 0#8, 0#8, 0#8, 0#8, 0#8, 0#8,
      0#8, 0#8, 0#8, 0#8, 0#8, 0#8, 58#8, 222#8, 104#8, 168#8]) := by
  decide +kernel

end Verif.Validation
