import Verif.Model.Asn1
import Verif.Model.Rsa

/-! # Model of `src/rsa/asn1.rs` and of the conversions from PEM in `src/rsa/mod.rs`

Errors are constructors of `Error`, with the values that the message texts contain; the texts are in
`Verif.Model.Text`. -/

namespace Verif.Model.RsaAsn1
open Verif Verif.Model.Big Verif.Model.Asn1

/-- The error messages of src/rsa/asn1.rs and src/rsa/mod.rs:91 and 108: one constructor for each message, with the values
in it. -/
inductive Error
  /-- src/rsa/asn1.rs:40-43, 77-80, 128-131 and 173-176 (the same text). -/
  | notASequence (found : Asn1)
  /-- src/rsa/asn1.rs:46. -/
  | expectedThreeElements
  /-- src/rsa/asn1.rs:49. -/
  | versionNotZero
  /-- src/rsa/asn1.rs:54. -/
  | privateAlgorithmNotRsa
  /-- src/rsa/asn1.rs:58. -/
  | notAnOctetString
  /-- src/rsa/asn1.rs:62. -/
  | privateKeyBytes (e : Asn1.Error)
  /-- src/rsa/asn1.rs:64. -/
  | privateKey (e : Error)
  /-- src/rsa/asn1.rs:83. -/
  | expectedTwoElements
  /-- src/rsa/asn1.rs:88. -/
  | algorithmNotRsa
  /-- src/rsa/asn1.rs:92. -/
  | notABitString
  /-- src/rsa/asn1.rs:95. -/
  | unusedBits
  /-- src/rsa/asn1.rs:99. -/
  | publicKeyBytes (e : Asn1.Error)
  /-- src/rsa/asn1.rs:101. -/
  | publicKey (e : Error)
  /-- src/rsa/asn1.rs:113. -/
  | expectedSequence
  /-- src/rsa/asn1.rs:116. -/
  | expectedObjectIdentifier
  /-- src/rsa/asn1.rs:135. -/
  | expected9Elements
  /-- src/rsa/asn1.rs:149 and 188 (the same text). -/
  | expectedIntegers
  /-- src/rsa/asn1.rs:153. -/
  | versionNotOneByte
  /-- src/rsa/asn1.rs:180. -/
  | expected2Elements
  /-- src/rsa/mod.rs:91. -/
  | notAPrivateKey
  /-- src/rsa/mod.rs:108. -/
  | notAPublicKey
  /-- The message of `Asn1::try_from`, src/rsa/mod.rs:93 and 110. -/
  | asn1 (e : Asn1.Error)
  deriving Repr

/-- `AlgorithmIdentifier`, src/rsa/asn1.rs:14-16. -/
structure AlgorithmIdentifier where
  algorithm : List U8
  deriving DecidableEq, Repr

/-- `PrivateKey`, src/rsa/asn1.rs:19-29. -/
structure PrivateKey where
  version : U8
  modulus : BigUint
  publicExponent : BigUint
  privateExponent : BigUint
  prime1 : BigUint
  prime2 : BigUint
  exponent1 : BigUint
  exponent2 : BigUint
  coefficient : BigUint
  deriving DecidableEq, Repr

/-- `PublicKey`, src/rsa/asn1.rs:32-35. -/
structure PublicKey where
  modulus : BigUint
  publicExponent : BigUint
  deriving DecidableEq, Repr

/-- `PrivateKeyInfo`, src/rsa/asn1.rs:3-7. -/
structure PrivateKeyInfo where
  version : U32
  privateKeyAlgorithm : AlgorithmIdentifier
  privateKey : PrivateKey
  deriving DecidableEq, Repr

/-- `SubjectPublicKeyInfo`, src/rsa/asn1.rs:9-12. -/
structure SubjectPublicKeyInfo where
  algorithm : AlgorithmIdentifier
  subjectPublicKey : PublicKey
  deriving DecidableEq, Repr

/-- The object identifier of src/rsa/asn1.rs:52 and 86. -/
def rsaOid : List U8 := [42#8, 134#8, 72#8, 134#8, 247#8, 13#8, 1#8, 1#8, 1#8]

/-- `AlgorithmIdentifier::from_asn1`, src/rsa/asn1.rs:111-122 (and `try_from`, 217-219). -/
def AlgorithmIdentifier.fromAsn1 (asn : Asn1) : Except Error AlgorithmIdentifier :=
  match asn with
  | .sequence seq =>
    match seq with
    | [.objectIdentifier algo, .null] => .ok ⟨algo⟩
    | _ => .error .expectedObjectIdentifier
  | _ => .error .expectedSequence

/-- `PrivateKey::from_asn1`, src/rsa/asn1.rs:126-167 (and `try_from`, 225-227). -/
def PrivateKey.fromAsn1 (asn : Asn1) : R (Except Error PrivateKey) :=
  match asn with
  | .sequence seq => do
    if seq.length ≠ 9 then return .error .expected9Elements
    match seq with
    | [.integer version, .integer modulus, .integer publicExponent, .integer privateExponent, .integer prime1,
        .integer prime2, .integer exponent1, .integer exponent2, .integer coefficient] =>
      if version.length ≠ 1 then return .error .versionNotOneByte
      return .ok {
        version := ← idx version 0
        modulus := ← fromBeBytes modulus
        publicExponent := ← fromBeBytes publicExponent
        privateExponent := ← fromBeBytes privateExponent
        prime1 := ← fromBeBytes prime1
        prime2 := ← fromBeBytes prime2
        exponent1 := ← fromBeBytes exponent1
        exponent2 := ← fromBeBytes exponent2
        coefficient := ← fromBeBytes coefficient }
    | _ => return .error .expectedIntegers
  | _ => .ok (.error (.notASequence asn))

/-- `PublicKey::from_asn1`, src/rsa/asn1.rs:171-195 (and `try_from`, 233-235). -/
def PublicKey.fromAsn1 (asn : Asn1) : R (Except Error PublicKey) :=
  match asn with
  | .sequence seq => do
    if seq.length ≠ 2 then return .error .expected2Elements
    match seq with
    | [.integer modulus, .integer publicExponent] =>
      return .ok { modulus := ← fromBeBytes modulus, publicExponent := ← fromBeBytes publicExponent }
    | _ => return .error .expectedIntegers
  | _ => .ok (.error (.notASequence asn))

/-- `asn == Asn1::Integer(vec![0])`, src/rsa/asn1.rs:48. -/
def isZero : Asn1 → Bool
  | .integer bytes => bytes = [0#8]
  | _ => false

/-- `PrivateKeyInfo::from_asn1`, src/rsa/asn1.rs:38-71 (and `try_from`, 201-203). -/
def PrivateKeyInfo.fromAsn1 (asn : Asn1) : R (Except Error PrivateKeyInfo) :=
  match asn with
  | .sequence seq => do
    if seq.length ≠ 3 then return .error .expectedThreeElements
    if ¬ isZero (← idx seq 0) then return .error .versionNotZero
    match AlgorithmIdentifier.fromAsn1 (← idx seq 1) with
    | .error e => return .error e
    | .ok algo =>
      if algo.algorithm ≠ rsaOid then return .error .privateAlgorithmNotRsa
      match ← idx seq 2 with
      | .octetString bytes =>
        match ← tryFrom bytes with
        | .error e => return .error (.privateKeyBytes e)
        | .ok asn =>
          match ← PrivateKey.fromAsn1 asn with
          | .error e => return .error (.privateKey e)
          | .ok pr => return .ok ⟨0#32, algo, pr⟩
      | _ => return .error .notAnOctetString
  | _ => .ok (.error (.notASequence asn))

/-- `SubjectPublicKeyInfo::from_asn1`, src/rsa/asn1.rs:75-107 (and `try_from`, 209-211). -/
def SubjectPublicKeyInfo.fromAsn1 (asn : Asn1) : R (Except Error SubjectPublicKeyInfo) :=
  match asn with
  | .sequence seq => do
    if seq.length ≠ 2 then return .error .expectedTwoElements
    match AlgorithmIdentifier.fromAsn1 (← idx seq 0) with
    | .error e => return .error e
    | .ok algo =>
      if algo.algorithm ≠ rsaOid then return .error .algorithmNotRsa
      match ← idx seq 1 with
      | .bitString bytes unusedBits =>
        if unusedBits ≠ 0#8 then return .error .unusedBits
        match ← tryFrom bytes with
        | .error e => return .error (.publicKeyBytes e)
        | .ok asn =>
          match ← PublicKey.fromAsn1 asn with
          | .error e => return .error (.publicKey e)
          | .ok pb => return .ok ⟨algo, pb⟩
      | _ => return .error .notABitString
  | _ => .ok (.error (.notASequence asn))

end Verif.Model.RsaAsn1
