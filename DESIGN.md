# Formal model of Martomate/cryptography

All of `/repo/src` is pure, sequential Rust. It is modelled function by function in Lean 4
(`lean/Verif/Model/*`), the published standards and the vocabulary of the properties are written down
independently of the model (`lean/Verif/Spec/*`), and the properties of `properties.jsonl` are theorems
`Cnn_...` in `lean/Verif/Props/*`, each with examples showing that its hypotheses can be met. Helper
lemmas live in `lean/Verif/Proof/*`. `MANIFEST.json` lists the theorems of each property.

## Modelling conventions

* `u8`, `u16`, `u32`, `u64`, `u128` used as machine words are `BitVec 8/16/32/64/128`; wrapping
  operators are the BitVec operators. `usize`/`u32` used as counters or indices are `Nat`, with an
  explicit range check wherever the Rust operation can overflow. `usize` has 64 bits.
* `[T; N]` is `Vector T N`; `&[T]`/`Vec<T>` is `List T`; `&str`/`String` is `List Char`.
* A panic is a value: `R α = Except Panic α`. Slice/array indexing that is not in range by type,
  `unwrap`, `assert!`, `panic!`, division by zero, arithmetic overflow (Rust debug profile, the one
  `cargo test` uses) all produce `Except.error`, with the kind of panic. `Result<T, E>` is
  `Except E T` inside `R`.
* `&mut self` methods return the new value. Loops are folds or structural recursion; the loops
  whose termination is not syntactic (`mul_mod`, `inverse`, `mgf1`, ASN.1) take fuel computed from
  the input, and running out of fuel is the distinguished `Panic.diverged`. C84 proves for every
  function and every input that this outcome is unreachable, so the fuel is not a bound.
* The callback `output: impl FnMut(u8)` is modelled as the list of bytes passed to it, kept also
  when the call panics. `Model.Effects` repeats `BlockEncryption` and `StreamCipher` with callbacks,
  modes and iterators that are arbitrary code on a common state and may panic; C109 and C110 prove
  that the first description is exact for all of them.
* `BigUint` subtraction depends on `Vec::capacity`. The capacity is a parameter `cap` of the model
  (the capacity of a vector after growing to `n` elements); theorems hold for every `cap` with
  `CapOk cap` (at least `n`, and less than 2^29 for `n ≤ 2^28 + 1`), which every allocator satisfies
  for numbers of practical size.
* The release profile, in which overflow wraps around, is a second model `Model.Release` of exactly
  the functions that can overflow, and of their callers. All other functions of the model never
  return `Panic.overflow` (C106); they are the same in both profiles.

## Properties and how each is proved

| id | model | proof |
|----|-------|-------|
| C01, C02, C03, C04, C07 | `Model.Lib`: `BlockEncryption::{encrypt,decrypt}` for an arbitrary cipher and arbitrary stateful mode | induction over the list of blocks with a simulation relation between the encrypting and the decrypting mode state; C07 as an iff |
| C05, C06, C08 | `Model.Pad` | list/vector extensionality; C06 is false of the code: negation proved with a witness, plus the exact acceptance condition |
| C09, C10 | `Model.Lib`: `StreamCipher` over an arbitrary iterator state machine | induction over the data |
| C11–C13 | `Model.Rc4` against `Spec.Rc4` | permutation invariant by induction over steps; refinement |
| C14–C16 | `Model.Rc5` against `Spec.Rc5` | inverse of a round, induction over rounds; array-length invariant; constants characterised over the reals |
| C17–C19 | `Model.Rc2` against `Spec.Rc2` | inverse of mix/mash, induction over rounds; panic conditions as an iff; the PI table checked against digits of π |
| C20–C24, C69, C70 | `Model.Aes` against `Spec.Aes` (FIPS-197, GF(2^8) as polynomials) | linearity of xtime, complete 256-entry table checks in the kernel (`decide +kernel` over the whole finite domain), induction over rounds; the key schedule inverted |
| C25–C28 | `Model.Sha` against `Spec.Sha` (FIPS 180-4) | message-schedule invariant, block decomposition of the padded message; constants checked against integer roots of primes |
| C29–C31 | `Model.Sha` (`HashValue`) | byte/word round trip; C30 is false of the code (always panics): negation proved for every value |
| C32–C34 | `Model.Md2`, `Model.Md` against `Spec.Md2`, `Spec.Md` | invariant of the byte-at-a-time hasher: state = fold of the compression over complete blocks |
| C35–C46 | `Model.Big` | value function `Σ b_i 256^i`, per-loop invariants; C42, C43, C45, C46 are false of the code at stated points: negations plus exact partial theorems |
| C47–C50 | `Model.Rsa` | extended Euclid invariants with i128 bounds; square-and-multiply invariant; Fermat + CRT from Mathlib |
| C51–C55 | `Model.Oaep` for an arbitrary hash function | list algebra; C55 is false of the code (constant seed) |
| C56, C71–C73, C91 | `Model.Rsa`, `Model.Oaep` | C49/C52 composed; C56 is false of the code when the ciphertext has a leading zero byte: exact condition and a concrete witness |
| C57–C60, C74–C76 | `Model.Asn1` against a DER encoder and a grammar `Spec.Asn1` | mutual induction on trees / on fuel; C59, C60 false of the code: witnesses plus exact partial theorems; panics as an iff |
| C61–C64, C68 | `Model.Pem` with base64 (dependency) against `Spec.Pem` | list induction |
| C65–C67, C77, C78 | `Model.RsaAsn1`, `Model.Pem` against `Spec.Keys` | C57 and C61 composed; panics as an iff |
| C79–C83 | `Model.Pad`, `Model.Big` | the exact results behind the partial C06, C42, C43, C45, C46, as iffs and closed formulas for all inputs |
| C84 | all of the model | no call returns `Panic.diverged` |
| C85–C89 | `Model.Lib` with the concrete ciphers | C01–C04, C09–C21 composed; equality patterns of ECB; XOR of key-stream reuse |
| C90 | `Model.Sha`, `Model.Md` | the state after the padded message determines the digest of every extension |
| C92–C94 | `Model.Rsa` | inversion of the run of `create_keys`; Fermat + CRT |
| C95–C98 | `Model.Asn1`, `Model.Pem`, `Model.RsaAsn1` against `Spec.Asn1Errors`, `Spec.PemErrors`, `Spec.KeyErrors` | induction on the input; inductive relations "this input is rejected for that reason" and their equivalence with the code |
| C99, C100 | `Model.Sha`, `Model.Md`, `Model.Md2` | Merkle–Damgård: the last differing chaining step; the published collisions evaluated in the kernel, then extended by induction |
| C101–C105 | `Model.Release` against the checked model | `Agree`/`overflowBecomes` relations pushed through every function; exact results at the limits; concrete wrong keys |
| C106 | every function without a `Release` version | no step of it returns `Panic.overflow`, by case analysis and the totality theorems |
| C107, C108 | `Model.Release` | measure of each loop (size of the number, remainder, length of the mask); byte-exact invariant of the mask loop |
| C109 | `Model.Effects.encrypt`, `decrypt` | induction over the blocks: the run with an arbitrary callback is the recorded run delivered to it; log of a reporting cipher and callback |
| C110 | `Model.Effects.streamNext` | induction over the number of bytes pulled; induction over the history |
| C111 | all of `Model.Big` | programs are run on the model and on `Nat` (`Spec.BigHistory`); induction over the program with the invariant that each variable is the normal form of its number |
| C112 | `Model.Rsa.encryptMessage`, `decryptMessage`, arbitrary `PaddingScheme` | case analysis on what the scheme returns, from C50 and the byte-string lemmas; instance: the scheme of the project's tests |
| C113 | `Model.Text` (error texts, derived `Debug` of `Asn1`) over C96, C98, C97, C36 | the printed form is uniquely readable (structural induction on the value, decimal numbers end at the separator); texts compared with the sentences of `Spec.Text` |
| C114 | `Model.Oaep.decode` | unmasking is a bijection on (seed, data block); case analysis of the data block |
| C115 | `Model.Rc2.fromKey` | PITABLE is injective (whole table), so both loops of the expansion can be run backwards; counting by a bijection with the numbers below `2^bits` |
| C116 | `Model.Rsa.decryptMessage` | C112 depends on the ciphertext only through its length and its residue; acceptance from C73 and the correctness of RSA |
| C117 | `Model.Asn1Width` (parser with the width of `usize` as a parameter) | induction over the fuel in step with the 64-bit parser |
| C118 | `Model.MdWidth` (hasher with the width of `usize` as a parameter, both build profiles) | induction over the blocks, count modulo `2^w`; below the limit equality with the 64-bit hasher |
| C119 | `Model.Pem.fmt` (arbitrary `fmt::Write`) | the loop is the loop of `display` cut into pieces: induction over the base64 text; induction over the pieces |
| C120 | `Model.Rc4.new`, `encrypt` | a key that reaches a given permutation is built byte by byte (induction over the 256 steps); bijection with `Equiv.Perm (Fin 256)`, pigeonhole; two steps of the generator |
| C121 | `Model.blockDecrypt`, client mode `Spec.cbc` | C04's case analysis on two blocks; no xor mask preserves `0..=N` for even `N` (a fixed-point free involution has even support) |
| C122 | `Model.Rsa`, `Model.Oaep` | C50 and C53 reduce to number theory: Chinese remainder theorem, `em ^ e` is below the product of the moduli, cancellation modulo `n` |
| C123 | `Model.Rsa.encrypt`, `createKeys` | C50 reduces to counting solutions of `x ^ e = x`: kernel of a power map on a cyclic group, Chinese remainder theorem |
| C124 | `Model.Rc5` | C16 with 0 rounds; bytes and words determine each other |
| C125 | `Model.Work` (the loops of RSA again, in a counting monad) | erasing the counts gives `Model.Rsa` back (C125_same); induction over the loops; Lamé's theorem for the Euclidean algorithm |
| C126 | `Model.Ending` (decrypt_message with the panic text); the attacker is a decision tree in `Props.Manger` | C126_same ties it to `Model.Rsa`; invariants of the three steps of the attack (product just above a multiple of the modulus), C52/C53 for messages |
| C127 | `Model.Rsa` (create_keys, inverse, lcm); the panic and the exponent are specified on numbers in `Props.KeyGen` | invariants of the Euclidean loop with signs and sizes (also for moduli over 2^127, where it overflows); `lcm_ne`, `lcm_lt` for the moduli that occur |
| C128 | `Model.RsaAsn1`; two's complement value of an integer in `Props.KeySigns` | from C67: the value modulo 256 to the number of bytes, always; so right for numbers that are not negative (`_partial`), and negative ones are accepted as positive (`C128_false`); zeros in front are ignored |
| C129 | `Model.AesTrace`: `encrypt` and `decrypt` with a record of the places looked up in the S-boxes | forgetting the record gives `Model.Aes`; the record begins with the state before the first substitution; key bytes are the first words of the FIPS 197 expansion; injectivity of adding a key; C70 for decryption |
| C130 | `Model.Asn1Cost`: the parser of `Model.Asn1` with a count of calls, of copied bytes and of bytes kept in copies at the same time | the result is that of `Model.Asn1`; induction on the recursion with the bytes consumed as the measure (squares are superadditive); the family of nested sequences of C95 for the lower bound |
| C131 | as C05, C08 and C121 | bijections between blocks, functions and pairs; paddings are counted by the injectivity that the round trips give |
| C132 | as C49 and C127 | C132_iff: with C50 it is a statement about powers modulo n; necessity from the multiple x t of a square root of 0 and from a generator of the units modulo r, sufficiency by Fermat for each prime factor. C132_create_keys uses C92 and C127 |
| C133 | as C49 | C133_jacobi: C50 and multiplicativity of the symbol; C133_working_keys from C132, C133_create_keys from C92 |
| C134 | `Model.Rc4Trace`: key setup and generator with the list of the secret places; `Spec.Rc4Leak`: the programs of the observer | simulation: the observer's table is the code's table (setup), what the observer knows is true and grows by the visited places (stream); explicit inverse of a step |
| C135 | `Model.Rc2Trace`: the key expansion with the list of the places read | exact list of the places in terms of the buffers of RFC 2268 by induction over both loops; then the equations are solved for the key |
| C136 | `Model.Md2Trace`: the hash function with the list of the places read | simulation: the observer's checksum is the hasher's, byte by byte, by induction over the message |
| C137 | `Model.RsaTrace`: `pow_mod` with the list of the calls made | induction over the digits |
| C138 | `Model.AesTrace`: the lookups of both computations | the matrix of MixColumns has no singular submatrix, so five bytes of a column and its image are not zero; counting columns as in the wide trail argument; at most two solutions of a quadratic equation for the S-box |
| C139 | `factorFrom` in `Spec/Factor.lean` (the method, over natural numbers); `createKeys`, `Works` as before | with a number that is no square modulo p and is 1 modulo q the bases that fail are carried one to one to bases that succeed (Euler's criterion); key generation by C92, working keys by C132 |
| C140 | the keys returned by `create_keys`; the method in `Spec.Wiener` | `Spec.Wiener.convergent` is Mathlib's `Real.convergent` of a rational number and stops changing after two steps per bit; the fraction made from the private exponent is so close to e / n that Legendre's theorem makes it a convergent; the candidate it gives is (p - 1)(q - 1) |
| C141 | `Model.HashIter`: the loop over an iterator that is arbitrary code (`Model.Effects.Eff`), with fuel; `Spec.HashIter`: what an iterator does and how a call ends | induction over the history of the iterator; one step of each hasher keeps the number of stored bytes below the block size and cannot panic before the counter overflows |
| C142 | the tables `SBOX` computed by `calculate_sbox`; `Spec.Linear.parity` and `agreements` | the truth tables of all sums are packed into fields of 9 bits; then the number of differences is the exclusive or modulo 511, which the kernel evaluates for all 65280 pairs of masks |
| C143 | `Model.Debug`: the derived `Debug` as printed by `{:?}`; `Spec.Debug`: a reader of decimal numbers in brackets | the reader skips the words, reads the decimal numbers (by induction on digits and lists) and returns the lists of bytes |
| C144 | `Model.Lib`, `Model.Pad`; `Spec.ChosenPrefix`: strategies that ask for encryptions, and the attack as one of them | the emitted length shows the block size and the length of the secret; a filler puts the first unknown byte at the end of a block, whose ciphertext is an injective function of this byte; induction on the unknown rest of the secret |
| C145 | `Model.Rc5Trace`: decryption with a record of the rotations; `Spec.Rc5Leak`: plans that ask for decryptions, and the attack as one of them | RC5 as a sequence of words X j; the attacker chooses two neighbours X k, X (k - 1) by computing upwards with the words found so far, and reads the digits of S k from X (k - 2); induction on k downwards |
| C146 | `Model.Lib`; `Spec.Modes`: the three modes as a user would write them | the modes are lawful in the sense of C02; the layout by induction on the blocks, with the state in closed form |
| C147 | `Model.Unwind`: the operations write by write on a number in memory, a panic keeps the writes; `Spec.Unwind`: histories of calls inside `catch_unwind` | each operation write by write against the functional model: `-=` can panic only before its first write, `%=` only in the first comparison (divisor zero) or before |
| C148 | `Model.Rc4` and `Spec.Rc4`; `Spec.Fms`: what somebody with the first bytes can calculate | the scheduling up to the known bytes depends on them only; the three places stay as they are by induction on the steps; the table is a permutation, so that the place of the first byte is unique; C12 |
| C149 | `Model.Space`: the functions of an RSA operation with a record of the longest vector | forgetting the record gives the model back; induction over the loops: differences are not longer, remainders are smaller than the modulus, the shifted divisor of `%=` is as long as the dividend |
| C150 | `Model.Md`, `Model.Sha`; `Spec.Multi`: a search for pairs and the messages made from its results | by induction on the number of searches from C90 (equal hash values of equally long messages stay equal); that pairs exist, and the second hash function, by the pigeonhole principle |
| C151 | `Model.Rsa.createKeys`; `Spec.BadPrimes`: the three methods | unique factorisation for Fermat (no earlier try succeeds), (a-s)(a+s) <= ((p-q)/2)^2 for the bound; Fermat's little theorem; C92 for the keys |
| C152 | `Model.Rsa.encrypt` | C50 (encryption is exponentiation) and the identity of Franklin and Reiter; unique factorisation |
| C153 | `Model.OaepTrace` (`decodeT`, `decryptT`: the functions again, with counts that survive panics) | forgetting the counts gives back the model; inversion of a run; the attack of C126 with another oracle |
| C154 | `Model.blockDecrypt` with `Model.ecb` and the modes of `Spec.Block` and `Spec.Modes` | decryption of a list of blocks in two parts; one step of each mode |
| C155 | `Model.blockEncrypt` with the modes of `Spec.Block` and `Spec.Modes` | C146 and C121 for what the blocks are; injectivity of the cipher; the pigeonhole principle |
| C156 | `Model.Rsa.encrypt`, `Spec.Cycle.Repeated` | C50 and induction over the number of encryptions; Euler's theorem for the exponent; correctness of RSA |
| C157 | `Model.Rsa.encrypt`, `decrypt`, `Model.Big.isSet`, `Spec.LastBit` | C122_blinding and C37 give the answers; induction over the binary digits of the message divided by the modulus |
| C158 | `Model.Aes`, `Model.Rc2`, `Model.Rc5`, `Spec.Chained`, Mathlib's sign of a permutation | every step of a cipher is a product of maps that leave some bit alone and do not depend on it, and such maps are even; induction over the rounds and over the sequence |
| C159 | `Model.Rsa.createKeys`, `guess` | C48; e·d = k·lcm + 1 with k < e, multiplied by the greatest common divisor |
| C160 | `Model.Oaep.encode`, `Model.Rsa.encryptMessage`, `Model.Rsa.decrypt` | C53 gives the padded form; the mask of the data block depends on the seed only, and the seed is constant |
| C161 | `Model.Sha`, `Model.Md` | C25, C26, C27, C33, C34 and C90; the rounds of one block can be undone one by one, so they permute the values, and exactly one value is taken to zero |
| C162 | `Model.OaepWidth` (the width of `usize` is a parameter) against `Model.Oaep` and `Model.Rsa` | every sum and conversion of lengths is bounded by the hypotheses; `bits_used` is a `u32` |
| C163 | `Model.Rsa`; the search is written in `Spec.Split` without reference to the code | C50; encryption is multiplicative and, below the modulus, injective |
| C164 | `Model.Block`; CBC as in C121 | the blocks of CBC (C155) and that the cipher is injective; decryption block by block (C154) |
| C165 | `Model.Pem`, `Model.Rsa`; the files in `Spec.Keys` | C65, C66 and C132 |

Every property could be expressed in the model, so none is "not applicable". Eleven are `partial` in the
manifest because their English statement is false of the code.

## Properties that are false of the code

Each has a theorem with `false` in its name proving the negation from a concrete witness, a `_partial`
theorem for the part that holds, and (last column) a property giving the exact behaviour.

| id | what goes wrong | exact behaviour |
|----|-----------------|-----------------|
| C06 | PKCS unpadding looks only at the last byte and accepts 0 | C79 |
| C30 | converting a hash value to 64-bit words always panics (chunks of 4 bytes) | `C30_false_always_panics` |
| C42 | `1 - 2 = 1`: an underflow is noticed only if the subtrahend is longer than the buffer | C80 |
| C43 | `0 << 8` is not normalised; shifting right by more bytes than stored panics | C81 |
| C45 | `x % 0 = x` for `x < 128` | C82 |
| C46 | the un-normalised zero of C43 makes later operations panic | C83 |
| C55 | the OAEP seed is the constant 42, 42, … | C72 |
| C56 | `encrypt_message` drops leading zero bytes, `decrypt_message` takes the ciphertext length for the modulus length | C91, C73 |
| C59 | an empty bit string, a cut-off length or a length of more than 16 bytes panics | C75 |
| C60 | lengths are truncated to 64 bits | C60, C76 |
| C128 | negative ASN.1 integers in key files are accepted and read as positive numbers | C128 |

Further defects that are theorems: C95 (nesting depth of ASN.1 is not limited), C104 (release builds
create wrong keys when `p * q ≥ 2^128`), C105 (release builds compare numbers of 2^32 bits wrongly),
C116 (RSA numbers that are not below the modulus are reduced, not rejected), C117 (32-bit targets take ASN.1 lengths modulo
2^32), C118 (32-bit release builds hash a wrong length with MD4 and MD5 from 512 MiB on), C121 and C126 (failing
decryptions reveal the message), C122 (consequences of the constant seed), C123 and C124 (keys and round numbers that hide
little or nothing are accepted), C125 (the work depends on the private exponent).

## Trusted base

* Lean 4.33.0's kernel. No axioms are added; no `sorry`, `native_decide` or `bv_decide`.
* Axioms. Of the 606 theorems named in the manifest, 515 depend on `propext`, `Quot.sound` and
  `Classical.choice`; the others on fewer:

* `none`: `C101_panic`, `C101_value`.
* `propext`: `C35_to_be_bytes`, `C107_mgf1_empty_digest`.
* `Quot.sound, propext`: `C06_false`, `C06_false_wrong_bytes`, `C06_unpad_accepts_partial`, `C06_unpad_valid_partial`, `C08_bit_pad_panics`, `C09_split`, `C10_exhausted`, `C10_involution`, `C11_rc4_roundtrip`, `C13_rc4_key_equiv`, `C13_rc4_long_keys`, `C13_rc4_new_panics`, `C13_rc4_repeated_key`, `C14_rc5_inverse`, `C15_rc5_domain`, `C16_rc5_spec`, `C21_state_faithful`, `C22_aes_sbox_bijective`, `C24_iterator`, `C30_false_always_panics`, `C38_update_panics`, `C49_equal_primes_fail`, `C52_encode_panics`, `C59_false`, `C59_false_long_length`, `C60_false`, `C62_trim`, `C79_unpad_empty`, `C84_sbox`, `C89_rc4_never_finney`, `C89_rc4_step_injective`, `C92_composite`, `C94_euler_keys`, `C100_md4`, `C100_md5`, `C101_asn1`, `C101_big`, `C101_create_keys`, `C101_hashes`, `C101_keys`, `C101_pkcs_unpad`, `C101_rc2`, `C101_rsa`, `C103_asn1`, `C103_rc2`, `C106_block_encryption`, `C106_ecb_cbc`, `C106_padding`, `C106_stream`, `C109_bounded`, `C109_collect`, `C109_decrypt`, `C109_encrypt`, `C110_end`, `C110_history`, `C110_prefix`, `C110_unused`, `C117_converse_false`, `C117_width_64`, `C118_padding_right`, `C118_width_64`, `C119_buffer`, `C119_offers`, `C119_prefix`, `C119_record`, `C120_second_byte`, `C124_adds`, `C124_known_plaintext`, `C125_same`, `C126_same`, `C129_same`, `C134_all`, `C134_past`, `C134_same`, `C134_stream`, `C135_same`, `C136_same`, `C137_same`, `C139_sound`, `C140_sound`, `C142_balanced`, `C142_no_fixed`, `C145_count`, `C145_faithful`, `C149_same`, `C153_same`, `C162_mgf1`.

* The reading of the Rust code into the model. Each definition cites its file and lines and says where it
  simplifies.
* Dependencies modelled from their documentation, not from source: `base64` 0.22 (STANDARD engine),
  `hex` 0.4, `gcd` 2.3 (as `Nat.gcd`), and the Rust standard library functions used (`chunks_exact`, `rotate_left`,
  `str::lines`, `str::trim` with the Unicode White_Space characters, `rposition`, …).
* The specifications in `lean/Verif/Spec`. They are written after the standards; the examples beside the
  theorems evaluate published test vectors in the kernel.

## What is modelled and what is not

Modelled: every function of `src/lib.rs`, `src/pad.rs`, `src/aes`, `src/rc`, `src/md`, `src/sha`, `src/big`,
`src/rsa`, `src/pem`.

Not modelled:

* Memory exhaustion, stack overflow of the recursive ASN.1 parser (C95 shows that the depth is not limited by the code,
  C130 bounds the calls and copies),
  running time (but `Model.Work` counts the steps of RSA, C125, and `Model.Space` records its longest number, C149; `Model.OaepTrace` counts the work of OAEP decoding, C153), side channels (but `Model.AesTrace`,
  `Model.Rc4Trace`, `Model.Rc2Trace`, `Model.Md2Trace`, `Model.Rc5Trace` and `Model.RsaTrace` record the table lookups of AES,
  RC4, RC2 and MD2, the rotations of RC5 and the multiplications of RSA, C129, C134-C137, C145). What a value looks like after
  a panic was caught is modelled for `BigUint` only (`Model.Unwind`, C147).
* The text of panics (except that of a failing decryption, `Model.Ending`) and of the errors of `base64` and `hex`. (The texts of the crate's own errors are in `Model.Text`.)
* `Deref`, `Default`, `Debug` (other than that of `Asn1`, `BigUint`, the keys and `HashValue`), `Clone`, `PartialEq` implementations that are derived or return a field; `From<u128> for
  BigUint` and `From<HashValue<N>> for [u8; N]`, which only call what is modelled.
* Targets whose `usize` does not have 64 bits, except for ASN.1 lengths (`Model.Asn1Width`), the byte count of MD4 and
  MD5 (`Model.MdWidth`) and OAEP and RSA messages (`Model.OaepWidth`).
* `#[cfg(test)]` code.

## Tests of the model against the project's tests

`Verif.Validation` runs the inputs and expected outputs of the project's own tests (unit tests and
`tests/*.rs`) on the model, in the kernel. These are tests of the transcription, not proofs, and no
property rests on them. The cases that are slow in the kernel (AES and RC2 blocks, MD2, SHA-384,
SHA-512, the larger RSA numbers) were evaluated outside the build with the same outcome. In the 2048-bit
end-to-end RSA test (`Verif.Validation.RsaBig`) the kernel reads the key files and pads the message with the model; the
exponentiation is evaluated by repeated squaring, which C112 justifies, and C52 removes the padding.

`difftest/port.py` is a second transcription of the Rust code, into Python. It has the same author as the model, so a misreading
of the source could be in both. `difftest/run.sh SEED COUNT` compares the two on random inputs: big numbers (also ones with zero
bytes on top), key generation, ASN.1, key files, PEM texts, padding, OAEP, RC2, RC4, RC5, AES, MD2 and MD4. The results compared
include whether the call panics (not the message of the panic) and the text of an error. MD5 and the SHA functions are compared
with Python's `hashlib` instead of a transcription. Block encryption is run with a test cipher and a chaining mode, the release profile only for key
generation, RSA messages only in very long runs. Three large runs (159336, 41841 and 75857 cases) gave no difference. These are tests; no property rests on them.

## Tests of the theorems against wrong programs

`seeded/LOG.jsonl` records the edits of the model that imitate realistic bugs. Each was made in a copy of the project, which
was rebuilt; the log names the theorems that failed to build first. Where an edit that made a claim false was not noticed
the theorems were tightened, and the log says which. Besides the edits that
were thought of, 364 were generated by changing one token of the model at random (a constant, an operator, a comparison, a
shift): 62 did not build as a model, 299 were noticed and 3 were not, all three without effect on the program. The log lists
the 302 that built, with `generated` in the field `edit`; for these the build was stopped at the first error.
