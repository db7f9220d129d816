{"id": "C01", "title": "ECB block encryption round-trips", "statement": "For every block size N from 1 to 255, every block cipher whose decrypt undoes its encrypt, and every plaintext, BlockEncryption::decrypt in ECB mode applied to the bytes emitted by BlockEncryption::encrypt emits exactly the plaintext and does not panic.", "quantifier": "all block sizes 1..=255, all invertible block ciphers, all plaintexts of any length", "why_tests_cant": "The plaintext length, the block size and the cipher are all unbounded; tests pick three ciphers and a handful of lengths.", "anchors": ["src/lib.rs: BlockEncryption::encrypt, BlockEncryption::decrypt, EcbMode", "src/pad.rs: PkcsPadding"]}
{"id": "C02", "title": "Round-trip for every stateful chaining mode", "statement": "For every stateful mode whose decrypt_block undoes encrypt_block along any history of blocks (started from matching states), decrypt after encrypt emits exactly the plaintext; in particular this holds for cipher block chaining, and fails for no lawful mode.", "quantifier": "all lawful stateful modes, all ciphers, all block sizes 1..=255, all plaintexts", "why_tests_cant": "Modes carry state from block to block, so the claim is about every history of blocks, not about one call.", "anchors": ["src/lib.rs: BlockCipherMode, BlockEncryption::encrypt, BlockEncryption::decrypt"]}
{"id": "C03", "title": "Ciphertext layout", "statement": "BlockEncryption::encrypt always emits (len/N + 1) * N bytes: under ECB, output block i is the cipher applied to plaintext block i, and the final block is the cipher applied to the remaining bytes completed with PKCS#7 padding; for a stateful mode the blocks are processed strictly in order, one call per block, threading the state.", "quantifier": "all block sizes N >= 1, all ciphers, all modes, all plaintexts", "why_tests_cant": "Number of blocks is unbounded.", "anchors": ["src/lib.rs: BlockEncryption::encrypt", "src/pad.rs: PkcsPadding::pad"]}
{"id": "C04", "title": "Behaviour of decrypt on arbitrary ciphertexts", "statement": "BlockEncryption::decrypt panics having emitted nothing if the ciphertext is empty or its length is not a multiple of N; otherwise, if the last byte of the last decrypted block exceeds N it panics after emitting exactly all earlier decrypted blocks; otherwise it emits the decrypted blocks minus as many trailing bytes as that last byte says. If the cipher or the mode panics on a block, that panic reaches the caller after all but the last of the blocks decrypted before it have been emitted. There is no other behaviour.", "quantifier": "all byte strings given as ciphertext, all ciphers and modes, all block sizes N >= 1", "why_tests_cant": "Ciphertexts are attacker-controlled; tests never feed malformed ones.", "anchors": ["src/lib.rs: BlockEncryption::decrypt", "src/pad.rs: PkcsPadding::unpad"]}
{"id": "C05", "title": "PKCS padding pads to a full block and unpads exactly", "statement": "For 1 <= N <= 255 and every input shorter than N, PkcsPadding::pad returns the input followed by N-len copies of the byte N-len, and unpad of the result returns the original length; pad panics exactly when the input has N bytes or more.", "quantifier": "all block sizes 1..=255, all inputs", "why_tests_cant": "Holds for every block size and content, tests use N = 4 only.", "anchors": ["src/pad.rs: PkcsPadding::pad, PkcsPadding::unpad"]}
{"id": "C06", "title": "PKCS unpadding rejects malformed padding", "statement": "PkcsPadding::unpad accepts a block only if it ends in k copies of the byte k for some 1 <= k <= N (valid PKCS#7), and panics otherwise.", "quantifier": "all blocks of all sizes", "why_tests_cant": "The set of malformed blocks is the complement of the tested values; the only test uses [5,5,5,5].", "anchors": ["src/pad.rs: PkcsPadding::unpad"]}
{"id": "C07", "title": "Exact limit of the PKCS padding byte", "statement": "For block sizes above 255 the padding count no longer fits a byte: encrypt followed by decrypt returns the plaintext if and only if the number of padding bytes N - (len mod N) is at most 255.", "quantifier": "all block sizes N >= 1, all invertible ciphers, all plaintexts", "why_tests_cant": "The failing block sizes are outside anything the tests instantiate.", "anchors": ["src/pad.rs: PkcsPadding::pad, PkcsPadding::unpad", "src/lib.rs: BlockEncryption"]}
{"id": "C08", "title": "Bit padding round-trips", "statement": "For every block size N >= 1 and every input shorter than N (including inputs that contain 0x80 bytes), BitPadding::unpad(pad(x)) returns the input zero-filled to N together with its original length; pad panics exactly when the input has N bytes or more; unpad panics exactly when no byte of the block is 0x80, and otherwise returns the position of the last 0x80 and the block cleared from there on.", "quantifier": "all block sizes, all inputs, all blocks", "why_tests_cant": "Inputs containing the marker byte are the interesting case and are not tested.", "anchors": ["src/pad.rs: BitPadding::pad, BitPadding::unpad"]}
{"id": "C09", "title": "Stream cipher: splitting a message does not matter", "statement": "For every key stream and every way of cutting a message into consecutive pieces, encrypting the pieces one after the other through the same StreamCipher yields the concatenation that encrypting the whole message at once yields, and leaves the key stream at the same position.", "quantifier": "all key streams, all messages, all ways of splitting into any number of pieces", "why_tests_cant": "The number of splits is exponential in the length.", "anchors": ["src/lib.rs: StreamCipher::encrypt"]}
{"id": "C10", "title": "Stream cipher: encrypting twice is the identity, lengths are preserved", "statement": "With a key stream at least as long as the message, StreamCipher::encrypt returns a message of the same length whose i-th byte is the i-th data byte xor the i-th key byte, and applying a fresh StreamCipher with the same key stream to it returns the message; if the key stream is shorter than the message, collecting the output panics after exactly the available keys have been used.", "quantifier": "all key streams (finite or infinite), all messages", "why_tests_cant": "Unbounded lengths; exhaustion is never tested.", "anchors": ["src/lib.rs: StreamCipher::new, StreamCipher::encrypt"]}
{"id": "C11", "title": "RC4 decrypt undoes encrypt", "statement": "For every non-empty key and every message, rc4::new(key).decrypt(rc4::new(key).encrypt(m)) = m, neither call panics and the length is preserved.", "quantifier": "all non-empty keys of any length, all messages", "why_tests_cant": "Keys and messages are unbounded; tests use three.", "anchors": ["src/rc/rc4.rs: KeyStream::new, KeyStream::encrypt, KeyStream::decrypt"]}
{"id": "C12", "title": "RC4 implements the RC4 key stream", "statement": "For every non-empty key, the k-th byte the KeyStream iterator yields is the k-th byte of the published RC4 algorithm (key scheduling followed by the pseudo-random generation), the iterator never ends and never panics, and at every point of every history the internal table is a permutation of 0..=255.", "quantifier": "all non-empty keys, all positions in the (infinite) stream", "why_tests_cant": "An infinite stream can only be sampled.", "anchors": ["src/rc/rc4.rs: KeyStream::new, KeyStream::next_key, Iterator::next"]}
{"id": "C13", "title": "RC4 key equivalences and the empty key", "statement": "rc4::new panics exactly on the empty key; two keys whose 256-byte cyclic expansions agree (in particular a key and its repetitions, or two keys agreeing on the first 256 bytes) give the same cipher.", "quantifier": "all keys", "why_tests_cant": "Keys longer than 256 bytes or repeated keys are not tested.", "anchors": ["src/rc/rc4.rs: KeyStream::new"]}
{"id": "C14", "title": "RC5 decrypt and encrypt are mutually inverse", "statement": "For every RC5 object that rc5::new returns (any key of 1..=255 bytes, any round count 0..=255) and every 8-byte block, decrypt(encrypt(b)) = b and encrypt(decrypt(b)) = b, and neither call panics.", "quantifier": "all keys of 1..=255 bytes, all round counts, all 2^64 blocks", "why_tests_cant": "2^64 blocks times all keys.", "anchors": ["src/rc/rc5.rs: RC5::new, RC5::encrypt_32, RC5::decrypt_32, BlockCipher for RC5"]}
{"id": "C15", "title": "RC5 constructor domain", "statement": "rc5::new returns normally exactly for keys of 1 to 255 bytes, whatever the round count; the empty key (allowed by RFC 2040) and keys of 256 bytes or more panic.", "quantifier": "all keys, all round counts", "why_tests_cant": "The empty key is not tested.", "anchors": ["src/rc/rc5.rs: RC5::new, RC5::expand_key"]}
{"id": "C16", "title": "RC5 is RC5-32/r/b", "statement": "For every key of 1..=255 bytes and every number of rounds, the block transformation is that of the RC5-32/r/b definition (little-endian key words, magic constants Odd((e-2)2^32) and Odd((phi-1)2^32), three passes of key mixing, data-dependent rotations).", "quantifier": "all keys, rounds, blocks", "why_tests_cant": "Test vectors cover one key length and one round count.", "anchors": ["src/rc/rc5.rs: P32, Q32, RC5::expand_key, RC5::encrypt_32"]}
{"id": "C17", "title": "RC2 decrypt and encrypt are mutually inverse", "statement": "For every RC2 object and every 8-byte block, decrypt(encrypt(b)) = b and encrypt(decrypt(b)) = b.", "quantifier": "all expanded keys, all 2^64 blocks", "why_tests_cant": "2^64 blocks times all keys.", "anchors": ["src/rc/rc2.rs: RC2::encrypt_block, RC2::decrypt_block, BlockCipher for RC2"]}
{"id": "C18", "title": "RC2 constructor domain", "statement": "rc2::from_key returns normally exactly when the key has 1 to 128 bytes and the effective key length is 1 to 1024 bits; every other argument pair panics.", "quantifier": "all keys, all u16 bit counts", "why_tests_cant": "The boundary cases are not tested.", "anchors": ["src/rc/rc2.rs: RC2::from_key, RC2::expand_key"]}
{"id": "C19", "title": "RC2 is RFC 2268", "statement": "For every admissible key and effective length, the cipher is the one RFC 2268 defines: its key expansion, and 16 mixing rounds with two mashing rounds after the fifth and eleventh; the effective key length really limits the key: the cipher depends on the key only through the last ceil(bits/8) expanded bytes with the first of them masked to the remaining bits.", "quantifier": "all admissible keys, lengths and blocks", "why_tests_cant": "Test vectors cover nine keys.", "anchors": ["src/rc/rc2.rs: PITABLE, RC2::expand_key, RC2::encrypt_block, RC2::mix, RC2::mash"]}
{"id": "C20", "title": "AES decrypt and encrypt are mutually inverse", "statement": "For every 128-, 192- and 256-bit key and every 16-byte block, Aes::decrypt(Aes::encrypt(b)) = b and Aes::encrypt(Aes::decrypt(b)) = b, and neither panics.", "quantifier": "all keys of the three sizes, all 2^128 blocks", "why_tests_cant": "2^128 blocks times 2^128..2^256 keys.", "anchors": ["src/aes/cipher.rs: Aes, BlockCipher for Aes"]}
{"id": "C21", "title": "AES is FIPS-197", "statement": "For every key of the three sizes and every block, Aes::encrypt computes the FIPS-197 Cipher: AddRoundKey, SubBytes, ShiftRows, MixColumns over GF(2^8) with the FIPS-197 key expansion and 10/12/14 rounds.", "quantifier": "all keys, all blocks", "why_tests_cant": "Six test vectors exist for the whole function.", "anchors": ["src/aes/cipher.rs", "src/aes/expander.rs", "src/aes/sbox.rs", "src/aes/field.rs"]}
{"id": "C22", "title": "AES S-box", "statement": "The compile-time S-box maps every byte to the affine image of its inverse in GF(2^8) (0 to 0x63), is a bijection, and the backward table is its inverse.", "quantifier": "all 256 bytes (finite table, checked completely)", "why_tests_cant": "The unit tests look at eight entries.", "anchors": ["src/aes/sbox.rs: calculate_sbox, transform_affine", "src/aes/field.rs: AesFieldIterator"]}
{"id": "C23", "title": "AES key schedule", "statement": "expand_key returns exactly 11/13/15 round keys that satisfy the FIPS-197 recurrence, starts with the key itself, never indexes out of bounds, and is injective in the key.", "quantifier": "all keys of the three sizes", "why_tests_cant": "Key space.", "anchors": ["src/aes/expander.rs: AesKeyExpander::expand_key, expand_key_using_words, calculate_round_constants"]}
{"id": "C24", "title": "AES field arithmetic", "statement": "The field multiplication is multiplication of polynomials over GF(2) modulo x^8+x^4+x^3+x+1: commutative, associative, distributive over xor, with 1 neutral; mul2 and mul3 are multiplication by 2 and 3; div3 undoes mul3; every non-zero byte has an inverse and the field iterator lists every non-zero byte exactly once together with its inverse.", "quantifier": "all bytes / pairs / triples of bytes", "why_tests_cant": "Associativity ranges over 2^24 triples; the tests check five products.", "anchors": ["src/aes/field.rs: AesField::mul, mul2, mul3, div3, AesFieldIterator"]}
{"id": "C25", "title": "SHA-1 is FIPS 180-4", "statement": "For every message shorter than 2^61 bytes sha1 returns the FIPS 180-4 SHA-1 digest and does not panic.", "quantifier": "all messages", "why_tests_cant": "Every message length and content; block-boundary lengths 55, 56, 63, 64 are where implementations break.", "anchors": ["src/sha/sha1.rs: sha1, process_chunk", "src/sha/pad.rs: sha1_padding", "src/sha/hash.rs"]}
{"id": "C26", "title": "SHA-224 and SHA-256 are FIPS 180-4", "statement": "For every message shorter than 2^61 bytes sha224 and sha256 return the FIPS 180-4 digests and do not panic; the constants are the fractional parts of the square and cube roots of the first primes.", "quantifier": "all messages", "why_tests_cant": "as for SHA-1", "anchors": ["src/sha/sha2.rs: sha224, sha256, process_chunk, sha2_padding, ROUND_CONSTANTS, INITIAL_HASH_224, INITIAL_HASH_256"]}
{"id": "C27", "title": "SHA-384 and SHA-512 are FIPS 180-4", "statement": "For every message that fits in memory sha384 and sha512 return the FIPS 180-4 digests and do not panic; the constants are the fractional parts of the square and cube roots of the first primes.", "quantifier": "all messages (below the limits of the hash functions: 2^61 bytes, for SHA-384 and SHA-512 2^64)", "why_tests_cant": "as for SHA-1; the tests hash only the empty string", "anchors": ["src/sha/sha2.rs: sha384, sha512, process_big_chunk, sha2_padding_big, ROUND_CONSTANTS_BIG, INITIAL_HASH_384, INITIAL_HASH_512"]}
{"id": "C28", "title": "SHA padding is unambiguous", "statement": "The blocks fed to the compression function determine the message: two different messages (below the length limit) never have the same padded block sequence; the padding adds between 9 and 72 bytes (17 and 144 for the 128-byte variants).", "quantifier": "all pairs of messages (below the limits of the hash functions: 2^61 bytes, for SHA-384 and SHA-512 2^64)", "why_tests_cant": "A claim about all pairs of messages.", "anchors": ["src/sha/pad.rs: sha1_padding", "src/sha/sha2.rs: sha2_padding_big"]}
{"id": "C29", "title": "Hash values convert to 32-bit words and back", "statement": "For Hash160, Hash224 and Hash256 converting words to a hash value and back returns the words, converting a hash value to words and back returns the value, and the bytes are the big-endian words in order.", "quantifier": "all hash values / word arrays", "why_tests_cant": "Value space; not tested at all.", "anchors": ["src/sha/hash.rs: u32s_to_bytes, bytes_to_u32s, From impls"]}
{"id": "C30", "title": "Hash values convert to 64-bit words and back", "statement": "For Hash384 and Hash512 converting words to a hash value and back returns the words.", "quantifier": "all hash values / word arrays", "why_tests_cant": "Value space; not tested at all.", "anchors": ["src/sha/hash.rs: u64s_to_bytes, bytes_to_u64s, From impls"]}
{"id": "C31", "title": "Hash values parse from hex", "statement": "HashValue::from_hex accepts exactly the strings of 2N hexadecimal digits (either case) and returns the value they spell; every other input gives an error, never a panic.", "quantifier": "all input strings, all N", "why_tests_cant": "Unbounded inputs.", "anchors": ["src/sha/hash.rs: FromHex for HashValue"]}
{"id": "C32", "title": "MD2 is RFC 1319", "statement": "For every sequence of bytes md2 returns the RFC 1319 digest and does not panic.", "quantifier": "all byte sequences", "why_tests_cant": "Unbounded messages; three vectors tested.", "anchors": ["src/md/md2.rs: hash, Hasher"]}
{"id": "C33", "title": "MD4 is RFC 1320", "statement": "For every sequence of fewer than 2^61 bytes md4 returns the RFC 1320 digest and does not panic.", "quantifier": "all byte sequences", "why_tests_cant": "Unbounded messages; four vectors tested, none at the padding boundary.", "anchors": ["src/md/md4.rs: hash, Hasher, Block"]}
{"id": "C34", "title": "MD5 is RFC 1321", "statement": "For every sequence of fewer than 2^61 bytes md5 returns the RFC 1321 digest and does not panic; the constants T[i] are floor(2^32 |sin i|).", "quantifier": "all byte sequences", "why_tests_cant": "Unbounded messages; four vectors tested, none at the padding boundary.", "anchors": ["src/md/md5.rs: hash, Hasher, Block, T"]}
{"id": "C35", "title": "BigUint byte conversions", "statement": "BigUint::from_be_bytes and from_le_bytes of any byte string denote the big-/little-endian number it spells, to_be_bytes returns the shortest big-endian spelling of the number, and from_be_bytes(to_be_bytes(x)) = x; equal numbers are equal BigUints.", "quantifier": "all byte strings including leading/trailing zeros and the empty one", "why_tests_cant": "Unbounded lengths.", "anchors": ["src/big/uint.rs: from_be_bytes, from_le_bytes, to_be_bytes, PartialEq"]}
{"id": "C36", "title": "BigUint and u128", "statement": "BigUint::from(v).as_u128() = Ok(v) for every u128; as_u128 returns Ok exactly when the number is below 2^128 and then returns the number.", "quantifier": "all u128 values, all normalised BigUints", "why_tests_cant": "2^128 values and unbounded BigUints.", "anchors": ["src/big/uint.rs: from_u128, as_u128"]}
{"id": "C37", "title": "BigUint bit queries", "statement": "bits_used is the bit length of the number and is_set(i) is its i-th binary digit for every index; neither panics on a normalised value of fewer than 2^29 bytes.", "quantifier": "all normalised BigUints, all u32 indices", "why_tests_cant": "Unbounded.", "anchors": ["src/big/uint.rs: bits_used, is_set"]}
{"id": "C38", "title": "BigUint update", "statement": "update(i, b) sets the i-th binary digit to b and leaves the others unchanged when i is inside the stored bytes, and panics otherwise.", "quantifier": "all BigUints, all indices", "why_tests_cant": "Unbounded.", "anchors": ["src/big/uint.rs: update"]}
{"id": "C39", "title": "BigUint addition is exact", "statement": "x += y and x += byte never lose a carry: the result is the exact sum, normalised, without panic.", "quantifier": "all BigUints and bytes", "why_tests_cant": "Carry chains of any length.", "anchors": ["src/big/uint.rs: AddAssign<&BigUint>, AddAssign<u8>"]}
{"id": "C40", "title": "BigUint comparison is numeric order", "statement": "cmp/partial_cmp agree with the numeric order of the values (hence a total order consistent with ==).", "quantifier": "all pairs of normalised BigUints below 2^29 bytes", "why_tests_cant": "Unbounded.", "anchors": ["src/big/uint.rs: Ord::cmp, PartialOrd"]}
{"id": "C41", "title": "BigUint subtraction is exact", "statement": "For x >= y, x -= y and x - &y give the exact normalised difference without panic.", "quantifier": "all pairs with x >= y (x of at most 2^31 bits: bit counts are 32-bit numbers in the code, and working buffers may be twice as large)", "why_tests_cant": "Borrow chains of any length.", "anchors": ["src/big/uint.rs: SubAssign, Sub"]}
{"id": "C42", "title": "BigUint subtraction underflow is detected", "statement": "For x < y, x -= y does not silently return a number (it panics).", "quantifier": "all pairs with x < y (x of at most 2^31 bits: bit counts are 32-bit numbers in the code, and working buffers may be twice as large)", "why_tests_cant": "Unbounded.", "anchors": ["src/big/uint.rs: SubAssign"]}
{"id": "C43", "title": "BigUint shifts", "statement": "x <<= k multiplies by 2^k and x >>= k divides by 2^k rounding down, both returning a normalised number.", "quantifier": "all BigUints, all shift amounts", "why_tests_cant": "Unbounded.", "anchors": ["src/big/uint.rs: ShlAssign, ShrAssign"]}
{"id": "C44", "title": "BigUint remainder", "statement": "For y > 0, x %= y gives the exact remainder, normalised, without panic.", "quantifier": "all x, all y > 0 (x of at most 2^31 bits, y of at most 2^32 - 8 bits: bit counts are 32-bit numbers in the code)", "why_tests_cant": "Unbounded sizes; long division is the classic source of rare bugs.", "anchors": ["src/big/uint.rs: RemAssign"]}
{"id": "C45", "title": "BigUint remainder by zero panics", "statement": "x %= 0 panics for every x.", "quantifier": "all x of at most 2^31 bits", "why_tests_cant": "Unbounded.", "anchors": ["src/big/uint.rs: RemAssign"]}
{"id": "C46", "title": "BigUint values stay normalised", "statement": "Every BigUint obtained from the constructors by any sequence of +=, -=, %=, <<=, >>= and clones (not update) has no superfluous high zero byte, so == is numeric equality and bits_used never panics.", "quantifier": "all finite sequences of public operations", "why_tests_cant": "Histories of any length.", "anchors": ["src/big/uint.rs: all public operations"]}
{"id": "C47", "title": "Modular inverse", "statement": "The inverse used for key generation returns Some(t) with a*t = 1 (mod n) and t <= n exactly when gcd(a,n) = 1, and None otherwise, without overflow, for every 0 < n < 2^127 and every u128 a.", "quantifier": "all a, n", "why_tests_cant": "2^255 pairs; overflow in the i128 bookkeeping is invisible to samples.", "anchors": ["src/rsa/mod.rs: inverse"]}
{"id": "C48", "title": "RSA key generation", "statement": "For any two primes p, q with pq < 2^128 and any u128 e, create_keys returns keys with n = pq, public exponent e and a private exponent d with e*d = 1 modulo lcm(p-1,q-1) if e is coprime to it, and panics if it is not; no arithmetic overflow can occur.", "quantifier": "all primes with product below 2^128, all e", "why_tests_cant": "Unbounded number of key pairs.", "anchors": ["src/rsa/mod.rs: create_keys, lcm, inverse"]}
{"id": "C49", "title": "Textbook RSA round-trip", "statement": "For distinct primes p, q with pq < 2^128 and admissible e, with the keys of create_keys, decrypting what was encrypted returns the number, for every number below n, in both directions (public then private, private then public).", "quantifier": "all keys, all messages below n (moduli of at most 2^31 - 8 bits and exponents of at most 2^32 - 8 bits: bits are counted in 32-bit numbers)", "why_tests_cant": "Key and message space.", "anchors": ["src/rsa/mod.rs: create_keys, RsaEncryption::encrypt, RsaEncryption::decrypt"]}
{"id": "C50", "title": "RSA encrypt/decrypt is modular exponentiation", "statement": "RsaEncryption::encrypt/decrypt return m^exponent mod n for every m, every exponent and every modulus n >= 2, always terminate, and always return a number below n.", "quantifier": "all m, exponents, moduli >= 2 below 2^28 bytes", "why_tests_cant": "Unbounded.", "anchors": ["src/rsa/mod.rs: pow_mod, mul_mod, RsaEncryption::encrypt"]}
{"id": "C51", "title": "MGF1", "statement": "mgf1(seed, len) is the first len bytes of hash(seed||0) || hash(seed||1) || ... with 4-byte big-endian counters, for every hash function, seed and length of fewer than 2^32 digests (longer ones panic); shorter outputs are prefixes of longer ones.", "quantifier": "all hash functions, seeds, lengths", "why_tests_cant": "Unbounded.", "anchors": ["src/rsa/mgf.rs: mgf1"]}
{"id": "C52", "title": "OAEP decode undoes encode", "statement": "For every hash function with N-byte digests (N >= 1), every label, every message and every n_len >= len(message) + 2N + 2 (below the MGF1 limit), decode(label, encode(label, m, n_len), n_len) = Ok(m); encode panics exactly when n_len is smaller.", "quantifier": "all hash functions, labels, messages (including ones starting with zeros or ones), lengths (labels below 2^61 bytes)", "why_tests_cant": "Unbounded.", "anchors": ["src/rsa/oaep.rs: OaepPadding::encode, OaepPadding::decode, xor_slices", "src/rsa/pad.rs: RsaPadding"]}
{"id": "C53", "title": "OAEP encoding shape", "statement": "The encoding has exactly n_len bytes, starts with a zero byte and satisfies the RFC 8017 EME-OAEP equations, so as a number it is below every modulus of n_len bytes and encrypt_message's assertion never fires.", "quantifier": "all labels, messages, lengths, moduli (moduli of at most 2^31 - 8 bits and exponents of at most 2^32 - 8 bits: bits are counted in 32-bit numbers) (labels below 2^61 bytes)", "why_tests_cant": "Unbounded.", "anchors": ["src/rsa/oaep.rs: OaepPadding::encode", "src/rsa/mod.rs: RsaEncryption::encrypt_message"]}
{"id": "C54", "title": "OAEP decoding rejects everything that is not an encoding", "statement": "decode(label, em, n_len) returns Ok(m) only if em unmasks to hash(label) || 0..0 || 1 || m behind a zero byte; in particular a ciphertext made for one label is accepted under another only if the label hashes collide. Every other input of admissible length gives an error; only inputs shorter than 2N+1 bytes or with a mismatching n_len panic.", "quantifier": "all labels, all byte strings, all lengths", "why_tests_cant": "Attacker-controlled inputs.", "anchors": ["src/rsa/oaep.rs: OaepPadding::decode"]}
{"id": "C55", "title": "OAEP encryption is randomised", "statement": "Encrypting the same message twice gives different ciphertexts (fresh random seed).", "quantifier": "all messages and labels (moduli of at most 2^31 - 8 bits and exponents of at most 2^32 - 8 bits: bits are counted in 32-bit numbers)", "why_tests_cant": "A statement about all pairs of calls.", "anchors": ["src/rsa/oaep.rs: OaepPadding::encode (seed)"]}
{"id": "C56", "title": "RSA message encryption round-trips", "statement": "For every RSA key pair (n = pq, ed = 1 mod lcm(p-1,q-1)) and every message of at most n_len-66 bytes, decrypt_message(encrypt_message(m)) = m with RsaPadding.", "quantifier": "all key pairs, all messages (moduli of at most 2^31 - 8 bits and exponents of at most 2^32 - 8 bits: bits are counted in 32-bit numbers)", "why_tests_cant": "About one ciphertext in 256 starts with a zero byte; a test with one fixed message cannot see it.", "anchors": ["src/rsa/mod.rs: RsaEncryption::encrypt_message, RsaEncryption::decrypt_message"]}
{"id": "C57", "title": "ASN.1 parsing inverts DER encoding", "statement": "For every tree of integers, octet strings, bit strings, nulls, object identifiers and sequences, parsing its DER encoding returns that tree (any nesting depth, lengths in short and long form).", "quantifier": "all trees, any depth and size below 2^64 bytes", "why_tests_cant": "Unbounded trees.", "anchors": ["src/pem/asn1.rs: Asn1::parse_from_bytes, TryFrom<&[u8]>"]}
{"id": "C58", "title": "ASN.1 parsing always terminates and consumes exactly the declared bytes", "statement": "On every byte string parsing terminates with a tree, an error or a panic; when it returns a tree the bytes consumed are the tag, the length field and exactly the declared number of content bytes (the number being read modulo 2^64, see C60), and trailing bytes make the conversion fail.", "quantifier": "all byte strings", "why_tests_cant": "Attacker-controlled unbounded inputs.", "anchors": ["src/pem/asn1.rs: Asn1::parse_from_bytes, TryFrom<&[u8]>"]}
{"id": "C59", "title": "ASN.1 parsing never panics", "statement": "On every byte string Asn1::try_from returns Ok or Err; it never panics.", "quantifier": "all byte strings", "why_tests_cant": "Attacker-controlled unbounded inputs.", "anchors": ["src/pem/asn1.rs: Asn1::parse_from_bytes"]}
{"id": "C60", "title": "ASN.1 lengths are honoured", "statement": "A value whose declared content length exceeds the bytes that follow is rejected.", "quantifier": "all byte strings", "why_tests_cant": "Attacker-controlled unbounded inputs.", "anchors": ["src/pem/asn1.rs: Asn1::parse_from_bytes (as usize)"]}
{"id": "C61", "title": "PEM text round-trips", "statement": "For every data and every label, PEM::from_str(pem.to_string()) returns the same label and data if and only if the label contains no line feed.", "quantifier": "all labels (any Unicode), all data", "why_tests_cant": "Unbounded.", "anchors": ["src/pem/mod.rs: Display for PEM, FromStr for PEM, decode_pem"]}
{"id": "C62", "title": "PEM acceptance", "statement": "PEM::from_str accepts exactly the texts that contain one BEGIN line followed later by one END line with the same label and well-formed base64 between, ignoring other text outside; the label and data returned are those. Every other text gives an error and no text panics.", "quantifier": "all texts", "why_tests_cant": "Unbounded.", "anchors": ["src/pem/mod.rs: extract_pem_pieces, parse_pem_data, decode_pem"]}
{"id": "C63", "title": "PEM parsing ignores layout", "statement": "Indentation, trailing whitespace, CRLF line ends, surrounding text without BEGIN/END lines, and re-wrapping of the base64 lines do not change the result.", "quantifier": "all texts and all such edits", "why_tests_cant": "Unbounded.", "anchors": ["src/pem/mod.rs: extract_pem_pieces"]}
{"id": "C64", "title": "PEM text layout", "statement": "to_string emits the BEGIN line, the base64 text cut into lines of exactly 64 characters except a shorter (possibly empty, when there is no data) last one, and the END line without trailing newline.", "quantifier": "all labels and data", "why_tests_cant": "Unbounded.", "anchors": ["src/pem/mod.rs: Display for PEM"]}
{"id": "C65", "title": "PKCS#8 private keys parse to their numbers", "statement": "For every RSA private key, the PEM of its PKCS#8 encoding converts to a PrivateKey with exactly its modulus and private exponent.", "quantifier": "all keys of any size", "why_tests_cant": "Unbounded.", "anchors": ["src/rsa/asn1.rs: PrivateKeyInfo::from_asn1, PrivateKey::from_asn1, AlgorithmIdentifier::from_asn1", "src/rsa/mod.rs: TryFrom<PEM> for PrivateKey"]}
{"id": "C66", "title": "SubjectPublicKeyInfo public keys parse to their numbers", "statement": "For every RSA public key, the PEM of its SubjectPublicKeyInfo encoding converts to a PublicKey with exactly its modulus and exponent.", "quantifier": "all keys of any size", "why_tests_cant": "Unbounded.", "anchors": ["src/rsa/asn1.rs: SubjectPublicKeyInfo::from_asn1, PublicKey::from_asn1", "src/rsa/mod.rs: TryFrom<PEM> for PublicKey"]}
{"id": "C67", "title": "Key conversion accepts only RSA keys of the right kind", "statement": "PrivateKey::try_from(pem) succeeds only for label PRIVATE KEY and data that is a PKCS#8 structure of version 0 with the rsaEncryption object identifier and nine integers; PublicKey::try_from(pem) only for label PUBLIC KEY and the corresponding structure; in particular no PEM is accepted as both.", "quantifier": "all PEM values", "why_tests_cant": "Unbounded.", "anchors": ["src/rsa/mod.rs: TryFrom<PEM>", "src/rsa/asn1.rs"]}
{"id": "C68", "title": "Base64 text is canonical", "statement": "The base64 codec used for PEM data (dependency, modelled): decoding inverts encoding, and every accepted text is the encoding of the data it decodes to.", "quantifier": "all data, all texts", "why_tests_cant": "Unbounded.", "anchors": ["src/pem/mod.rs: BASE64_STANDARD", "Cargo.toml: base64"]}
{"id": "C69", "title": "AES keys given as 64-bit words", "statement": "Aes::from(Key128/Key192/Key256::from([u64; 2/3/4])) is the cipher for the key whose bytes are the words' bytes, most significant byte of the first word first; it never panics.", "quantifier": "all word arrays", "why_tests_cant": "2^128 or more inputs; one test vector per size exists.", "anchors": ["src/aes/mod.rs: Key128, Key192, Key256, copy_u64s"]}
{"id": "C70", "title": "AES round keys determine the key", "statement": "The key schedule is invertible from any point: with a 128-bit key any single round key determines the key, with a 192-bit or 256-bit key any two consecutive round keys do (so a leaked window of the schedule is a leaked key).", "quantifier": "all pairs of keys, all round numbers", "why_tests_cant": "Ranges over pairs of keys.", "anchors": ["src/aes/expander.rs: expand_key_using_words"]}
{"id": "C71", "title": "RSA decryption of standard ciphertexts", "statement": "For every RSA key pair and every message of at most n_len-66 bytes, decrypt_message with RsaPadding returns the message for every RFC 8017 RSAES-OAEP ciphertext of it (SHA-256, empty label, any seed) written with exactly n_len bytes.", "quantifier": "all key pairs of any size, all messages, all seeds (moduli of at most 2^31 - 8 bits and exponents of at most 2^32 - 8 bits: bits are counted in 32-bit numbers)", "why_tests_cant": "Key, message and seed space.", "anchors": ["src/rsa/mod.rs: RsaEncryption::decrypt_message", "src/rsa/oaep.rs: OaepPadding::decode"]}
{"id": "C72", "title": "RSA message encryption identifies the message", "statement": "For every RSA key pair, two messages have the same encrypt_message ciphertext if and only if they are equal, at any two calls: a guess of the message can be confirmed with the public key alone.", "quantifier": "all key pairs, all pairs of messages (moduli of at most 2^31 - 8 bits and exponents of at most 2^32 - 8 bits: bits are counted in 32-bit numbers)", "why_tests_cant": "Ranges over pairs of messages and calls.", "anchors": ["src/rsa/oaep.rs: OaepPadding::encode (seed)", "src/rsa/mod.rs: RsaEncryption::encrypt_message"]}
{"id": "C73", "title": "RSA decryption accepts only encodings", "statement": "decrypt_message with RsaPadding returns a message m exactly when the decrypted number, written with as many bytes as the ciphertext, is an RFC 8017 OAEP encoding of m (empty label, some seed) of that length; on every other ciphertext it panics.", "quantifier": "all keys, all byte strings as ciphertexts (moduli of at most 2^31 - 8 bits and exponents of at most 2^32 - 8 bits: bits are counted in 32-bit numbers)", "why_tests_cant": "Attacker-controlled inputs.", "anchors": ["src/rsa/mod.rs: RsaEncryption::decrypt_message", "src/rsa/oaep.rs: OaepPadding::decode"]}
{"id": "C74", "title": "ASN.1 encodings are unambiguous", "statement": "No accepted encoding of a value is a proper prefix of another: a value can be cut off the front of a byte string in one way only, its tree is determined, and the contents of a sequence split into elements in one way only.", "quantifier": "all byte strings, all pairs of trees", "why_tests_cant": "Ranges over all pairs of encodings.", "anchors": ["src/pem/asn1.rs: Asn1::parse_from_bytes, TryFrom<&[u8]> for Asn1"]}
{"id": "C75", "title": "ASN.1 parsing panics, exactly", "statement": "Asn1::try_from panics on exactly the inputs where, at the front or in a sequence behind accepted elements (at any depth), there is a length field with more than 16 digit bytes, a length field that is cut off, or an empty bit string; on every other input it returns Ok or Err.", "quantifier": "all byte strings", "why_tests_cant": "Attacker-controlled inputs of any length and nesting.", "anchors": ["src/pem/asn1.rs: Asn1::parse_from_bytes"]}
{"id": "C76", "title": "ASN.1 length forms are interchangeable", "statement": "Two length fields (at most 16 digit bytes) that declare the same number can be exchanged without changing the parse result, so encodings other than the DER one are accepted for a value; contents of a null value are ignored.", "quantifier": "all tags, length fields and contents", "why_tests_cant": "Unbounded.", "anchors": ["src/pem/asn1.rs: Asn1::parse_from_bytes"]}
{"id": "C77", "title": "RSA key conversion panics, exactly", "statement": "PrivateKey::try_from(pem) and PublicKey::try_from(pem) panic on exactly the PEM values with the expected label where the ASN.1 parser panics on the data or, when the outer structure is that of an RSA key, on the nested octet or bit string; all others give Ok or Err.", "quantifier": "all PEM values", "why_tests_cant": "Attacker-controlled inputs of any length and nesting.", "anchors": ["src/rsa/mod.rs: TryFrom<PEM>", "src/rsa/asn1.rs", "src/pem/asn1.rs"]}
{"id": "C78", "title": "Keys loaded from standard files work together", "statement": "For every RSA key pair of any size, the private key loaded from its PKCS#8 PEM and the public key loaded from its SubjectPublicKeyInfo PEM undo each other on every number below the modulus, and the loaded private key decrypts every full-length RFC 8017 OAEP ciphertext made for the public key.", "quantifier": "all key pairs, all numbers below the modulus, all messages and seeds (moduli of at most 2^31 - 8 bits and exponents of at most 2^32 - 8 bits: bits are counted in 32-bit numbers)", "why_tests_cant": "Key and message space.", "anchors": ["src/rsa/mod.rs: TryFrom<PEM>, RsaEncryption::new, encrypt, decrypt, decrypt_message"]}
{"id": "C79", "title": "PKCS unpadding, exactly", "statement": "PkcsPadding::unpad of a non-empty block looks at the last byte k only: for k <= N it returns N - k, for every larger k it panics with its own message; an empty block panics too.", "quantifier": "all blocks of all sizes", "why_tests_cant": "Value space.", "anchors": ["src/pad.rs: PkcsPadding::unpad"]}
{"id": "C80", "title": "BigUint subtraction, exactly", "statement": "For all operands x -= y gives the difference when it is not negative; when it is negative, the difference modulo 2^(bit length of x) comes out without a panic as long as y fits the capacity of the working buffer; otherwise it panics.", "quantifier": "all pairs of BigUints (x of at most 2^31 bits: bit counts are 32-bit numbers in the code, and working buffers may be twice as large)", "why_tests_cant": "Unbounded.", "anchors": ["src/big/uint.rs: SubAssign"]}
{"id": "C81", "title": "BigUint shifts, exactly", "statement": "x <<= k is x * 2^k for all nonzero x and all k, and shifting zero gives a zero with k / 8 superfluous bytes; x >>= k is the rounded-down quotient when x has at least k / 8 bytes and panics otherwise; shifting left and then right by the same amount gives x back.", "quantifier": "all BigUints, all shift amounts", "why_tests_cant": "Unbounded.", "anchors": ["src/big/uint.rs: ShlAssign, ShrAssign"]}
{"id": "C82", "title": "BigUint remainder, exactly", "statement": "x %= m is the remainder for every nonzero m; for m = 0 it leaves x unchanged below 128 and panics from 128 on.", "quantifier": "all pairs of normalised BigUints (x of at most 2^31 bits, m of at most 2^32 - 8 bits: bit counts are 32-bit numbers in the code)", "why_tests_cant": "Unbounded.", "anchors": ["src/big/uint.rs: RemAssign"]}
{"id": "C83", "title": "Un-normalised BigUints are zeros", "statement": "The only un-normalised values that constructors, +=, -=, %=, <<= and >>= can produce are zeros with superfluous zero bytes; bits_used, comparisons and remainders on such a value panic, and an addition repairs it.", "quantifier": "all finite sequences of public operations", "why_tests_cant": "Histories of any length.", "anchors": ["src/big/uint.rs: all public operations"]}
{"id": "C84", "title": "Every call returns or panics", "statement": "No call runs forever: key generation, RSA encryption and decryption (of numbers and of messages), MGF1, OAEP, ASN.1 parsing, loading key files and computing the AES tables end on all arguments, including zero moduli and hostile files.", "quantifier": "all arguments of any size", "why_tests_cant": "Non-termination cannot be observed by a test, and the inputs are unbounded.", "anchors": ["src/rsa/mod.rs: inverse, mul_mod, pow_mod", "src/rsa/mgf.rs", "src/big/uint.rs: RemAssign", "src/pem/asn1.rs: parse_from_bytes", "src/aes/sbox.rs"]}
{"id": "C85", "title": "ECB encryption of whole messages follows the standards", "statement": "Encrypting a message in ECB mode emits exactly the standard's encryption (FIPS 197 for AES-128/192/256, RFC 2268 for RC2, the RC5 paper for RC5) of each block of the PKCS#7-padded message, in order, and nothing else.", "quantifier": "all keys of all valid sizes, all messages of any length", "why_tests_cant": "Key and message space.", "anchors": ["src/lib.rs: BlockEncryption::encrypt, EcbMode", "src/aes/mod.rs", "src/rc/rc2.rs", "src/rc/rc5.rs"]}
{"id": "C86", "title": "What ECB reveals", "statement": "Two ciphertext blocks of a message are equal exactly if the two blocks of the padded message are; and block-aligned pieces of two ciphertexts under the same key can be spliced, decrypting without error to the spliced message.", "quantifier": "all invertible ciphers, all block sizes, all messages", "why_tests_cant": "Ranges over all ciphers and pairs of messages.", "anchors": ["src/lib.rs: EcbMode, BlockEncryption"]}
{"id": "C87", "title": "Stream ciphers: key reuse and malleability", "statement": "Two messages encrypted from the same key-stream position have ciphertexts whose xor is the xor of the messages, and flipping ciphertext bits flips exactly these bits of the decrypted message; in particular for RC4.", "quantifier": "all key iterators, all messages", "why_tests_cant": "Unbounded.", "anchors": ["src/lib.rs: StreamCipher::encrypt", "src/rc/rc4.rs: KeyStream"]}
{"id": "C88", "title": "RC5 keys are completed with zeros", "statement": "Appending zero bytes to an RC5 key without starting a new 32-bit word gives the same cipher, so such keys are equivalent.", "quantifier": "all keys up to 255 bytes, all round counts", "why_tests_cant": "Key space.", "anchors": ["src/rc/rc5.rs: RC5::new, RC5::expand_key"]}
{"id": "C89", "title": "RC4 key streams", "statement": "The RC4 state update is injective, so every key stream is periodic from its first byte on, and no key ever reaches one of the short-cycle (Finney) states.", "quantifier": "all keys, any number of key bytes", "why_tests_cant": "Unbounded histories.", "anchors": ["src/rc/rc4.rs: KeyStream::new, next_key"]}
{"id": "C90", "title": "Length extension", "statement": "From the SHA-1, SHA-256, SHA-512, MD4 or MD5 digest of a message and its length alone, the digest of the padded message followed by any suffix can be computed (so hash(key || message) is not a MAC); equal-length collisions extend.", "quantifier": "all messages and suffixes (below the limits of the hash functions: 2^61 bytes, for SHA-384 and SHA-512 2^64)", "why_tests_cant": "Message space.", "anchors": ["src/sha/sha1.rs", "src/sha/sha2.rs", "src/md/md4.rs", "src/md/md5.rs"]}
{"id": "C91", "title": "RSA message decryption of own ciphertexts, exactly", "statement": "Decrypting the ciphertext of a message returns m' exactly if the encoding of the message, without as many leading bytes as the ciphertext is shorter than the modulus, is an OAEP encoding of m' and the dropped bytes are zero; for full-length ciphertexts this is the message and nothing else.", "quantifier": "all key pairs, all messages (moduli of at most 2^31 - 8 bits and exponents of at most 2^32 - 8 bits: bits are counted in 32-bit numbers)", "why_tests_cant": "Key and message space.", "anchors": ["src/rsa/mod.rs: RsaEncryption::encrypt_message, decrypt_message"]}
{"id": "C92", "title": "Key generation is sound for all arguments", "statement": "Whatever three numbers create_keys gets (composite, unnormalised, of any size): if keys come out, the modulus is the product and fits 128 bits, the exponents are inverse modulo lcm(p-1, q-1), the stored numbers are normalised, and exchanging p and q changes nothing. Primality is not tested.", "quantifier": "all triples of BigUints", "why_tests_cant": "Unbounded.", "anchors": ["src/rsa/mod.rs: create_keys, lcm, inverse"]}
{"id": "C93", "title": "Textbook RSA is a permutation with fixed points", "statement": "With a valid key pair encryption permutes the numbers below the modulus; under an odd exponent every x with x^3 = x modulo n (0, 1 and n - 1 among them) is its own ciphertext.", "quantifier": "all key pairs, all numbers below the modulus (moduli of at most 2^31 - 8 bits and exponents of at most 2^32 - 8 bits: bits are counted in 32-bit numbers)", "why_tests_cant": "Value space.", "anchors": ["src/rsa/mod.rs: RsaEncryption::encrypt"]}
{"id": "C94", "title": "RSA keys made elsewhere work", "statement": "A private exponent that is an inverse modulo (p-1)(q-1), as other programs compute it, works like one modulo lcm(p-1, q-1): all private exponents of a public key decrypt every number alike.", "quantifier": "all keys, all numbers below the modulus (moduli of at most 2^31 - 8 bits and exponents of at most 2^32 - 8 bits: bits are counted in 32-bit numbers)", "why_tests_cant": "Key space.", "anchors": ["src/rsa/mod.rs: From<PrivateKey> for RsaEncryption, RsaEncryption::decrypt"]}
{"id": "C95", "title": "ASN.1 trees are no larger than their input", "statement": "A parsed tree costs at least two input bytes per value plus one per stored byte, so small inputs never expand and nesting is at most half the input length; apart from that the nesting depth is not limited: about ten bytes per level reach any depth.", "quantifier": "all byte strings of any length", "why_tests_cant": "Input space; worst cases are not sampled by tests.", "anchors": ["src/pem/asn1.rs: Asn1::try_from, Asn1::parse_from_bytes"]}
{"id": "C96", "title": "ASN.1 rejections, exactly", "statement": "Parsing reports an error exactly if no value can be read off the front (no length, too few bytes, unknown tag, or one of these inside a sequence, at the first place where it happens) or bytes follow the value; each input is exactly one of accepted, rejected, with trailing bytes, or panicking, and the reported error names the reason.", "quantifier": "all byte strings of any length and nesting", "why_tests_cant": "Input space.", "anchors": ["src/pem/asn1.rs: Asn1::try_from, Asn1::parse_from_bytes"]}
{"id": "C97", "title": "PEM rejections, exactly", "statement": "Reading a text as PEM reports an error exactly if its BEGIN and END lines are not one BEGIN line followed by one END line of the same label (and the error names the first line that is wrong) or the lines between are not base64 text; the errors do not depend on any other line.", "quantifier": "all texts", "why_tests_cant": "Input space.", "anchors": ["src/pem/mod.rs: PEM::from_str, extract_pem_pieces, parse_pem_data"]}
{"id": "C98", "title": "Key file rejections, exactly", "statement": "Converting a PEM to a private or public key reports an error exactly if the label is another one, the data is not ASN.1, or the value deviates from PKCS#8 respectively SubjectPublicKeyInfo for RSA at one of the checked places, and the error names the first such place.", "quantifier": "all labels and data", "why_tests_cant": "Input space.", "anchors": ["src/rsa/mod.rs: TryFrom<PEM> for PrivateKey, TryFrom<PEM> for PublicKey", "src/rsa/asn1.rs: from_asn1 of all types"]}
{"id": "C99", "title": "Hash collisions are compression collisions", "statement": "Two different messages with the same digest contain a collision of the compression function: some block of each, with the hash values before them, differ but are compressed to the same value. (For MD2, which does not hash the length: or one of the messages leads back to the initial value.) So the padding and the chaining add no weakness.", "quantifier": "all pairs of messages, for SHA-1, SHA-256, SHA-512, MD4, MD5 and MD2 (below the limits of the hash functions: 2^61 bytes, for SHA-384 and SHA-512 2^64)", "why_tests_cant": "Nobody can enumerate pairs of messages; the known collisions are only examples.", "anchors": ["src/sha/sha1.rs: sha1", "src/sha/sha2.rs: sha256, sha512", "src/md/md2.rs: hash", "src/md/md4.rs: hash", "src/md/md5.rs: hash"]}
{"id": "C100", "title": "Known collisions collide, with any continuation", "statement": "The published colliding messages for MD4, MD5 and SHA-1 have the same digest here, and so do their extensions by any common suffix; the three functions do not identify files.", "quantifier": "all suffixes of any length", "why_tests_cant": "The suffix is unbounded.", "anchors": ["src/md/md4.rs: hash", "src/md/md5.rs: hash", "src/sha/sha1.rs: sha1"]}
{"id": "C101", "title": "Debug and release builds agree", "statement": "Compiled without overflow checks (release profile), every function returns the value, the error or the panic that it returns when compiled with them, except where the checked build panics because of an arithmetic overflow.", "quantifier": "all inputs of the hash functions, RC2 keys, PKCS#7 removal, ASN.1, key files, big numbers, key generation, OAEP and RSA", "why_tests_cant": "Tests run in one profile; the claim relates two builds on every input.", "anchors": ["src/sha/pad.rs: sha1_padding", "src/md/md4.rs: Hasher", "src/md/md5.rs: Hasher", "src/rc/rc2.rs: RC2::expand_key", "src/pad.rs: PkcsPadding::unpad", "src/pem/asn1.rs: Asn1::parse_from_bytes", "src/big/uint.rs: bits_used, cmp, sub_assign, rem_assign", "src/rsa/mod.rs: create_keys, lcm, inverse, encrypt_message, decrypt_message", "src/rsa/mgf.rs: mgf1", "src/rsa/oaep.rs: decode"]}
{"id": "C102", "title": "Release builds hash messages of any length", "statement": "Compiled without overflow checks, SHA-1, SHA-224, SHA-256, MD4 and MD5 return a digest for messages of every length, the standard one with the bit count taken modulo 2^64.", "quantifier": "all messages of any length, 2^61 bytes and more included", "why_tests_cant": "Messages of 2^61 bytes cannot be tested.", "anchors": ["src/sha/pad.rs: sha1_padding", "src/sha/sha1.rs: sha1", "src/sha/sha2.rs: sha224, sha256", "src/md/md4.rs: hash", "src/md/md5.rs: hash"]}
{"id": "C103", "title": "Release builds read files and keys like debug builds", "statement": "Compiled without overflow checks, ASN.1, private and public keys, RC2 keys and padded blocks are accepted and rejected like in the checked build; where that one panics because of an overflow, the release build panics too instead of going on with a wrapped value.", "quantifier": "all byte strings, PEM files, keys and blocks", "why_tests_cant": "Input space in two profiles.", "anchors": ["src/pem/asn1.rs: Asn1::try_from", "src/rsa/mod.rs: TryFrom<PEM> for PrivateKey, TryFrom<PEM> for PublicKey", "src/rc/rc2.rs: RC2::from_key", "src/pad.rs: PkcsPadding::unpad"]}
{"id": "C104", "title": "Release builds make wrong keys from large primes", "statement": "Compiled without overflow checks, create_keys reduces the product of the primes modulo 2^128: the keys it returns for larger products have a wrong modulus and no message at or above that modulus survives encryption and decryption. (The checked build panics.)", "quantifier": "all triples of numbers, all messages between the wrong and the right modulus", "why_tests_cant": "Input space; the tests use small primes.", "anchors": ["src/rsa/mod.rs: create_keys, lcm, inverse"]}
{"id": "C105", "title": "Release builds: subtraction, decryption and comparison at the limits", "statement": "Compiled without overflow checks, subtractions whose subtrahend does not fit and decrypt_message with a ciphertext that is too short still panic, and decrypt_message returns the same messages as the checked build; but the bit length is taken modulo 2^32, so a number of 2^32 bits compares as smaller than every positive number with fewer bits.", "quantifier": "all numbers, keys and ciphertexts up to the stated sizes; all numbers for the comparison (moduli of at most 2^31 - 8 bits and exponents of at most 2^32 - 8 bits: bits are counted in 32-bit numbers)", "why_tests_cant": "Sizes of 2^32 bits are not tested.", "anchors": ["src/big/uint.rs: bits_used, cmp, sub_assign", "src/rsa/mod.rs: decrypt_message"]}
{"id": "C106", "title": "Most of the crate does not depend on overflow checks", "statement": "AES, RC4 and RC5, block and stream encryption, padding (except unpadding blocks of length 0), MD2, SHA-384 and SHA-512, the hash value conversions, BigUint addition, shifts, update and byte conversions and the PKCS#1 key structures never end in an arithmetic overflow, whatever they are called with, so they behave identically in debug and release builds.", "quantifier": "all keys, blocks, texts, states, numbers and byte strings", "why_tests_cant": "Absence of overflow for all inputs is a universal statement.", "anchors": ["src/aes", "src/rc/rc4.rs", "src/rc/rc5.rs", "src/lib.rs: BlockEncryption, StreamCipher", "src/pad.rs", "src/md/md2.rs: hash", "src/sha/sha2.rs: sha384, sha512", "src/sha/hash.rs", "src/big/uint.rs", "src/rsa/asn1.rs"]}
{"id": "C107", "title": "Release builds: every call returns or panics", "statement": "Compiled without overflow checks, key generation, RSA, OAEP, MGF1 (with a hash function whose digest is not empty) and the parsers still terminate for all arguments. With an empty digest MGF1 never ends.", "quantifier": "all numbers (of any size, normalised or not), keys, messages, byte strings and hash functions that return", "why_tests_cant": "Termination for all inputs cannot be tested.", "anchors": ["src/rsa/mod.rs: create_keys, encrypt, decrypt, encrypt_message, decrypt_message", "src/rsa/mgf.rs: mgf1", "src/rsa/oaep.rs", "src/pem/asn1.rs: Asn1::try_from"]}
{"id": "C108", "title": "Release builds: encryption of messages and long masks", "statement": "Compiled without overflow checks, encrypt_message does exactly what the checked build does for every modulus other than 0, and panics for the modulus 0. MGF1 masks of more than 2^32 digests, which the checked build refuses, are periodic.", "quantifier": "all exponents, moduli (up to 256 MB), messages, seeds and mask lengths below 2^63 (moduli of at most 2^31 - 8 bits and exponents of at most 2^32 - 8 bits: bits are counted in 32-bit numbers)", "why_tests_cant": "Input space; masks of 2^32 digests are not tested.", "anchors": ["src/rsa/mod.rs: encrypt_message", "src/rsa/mgf.rs: mgf1"]}
{"id": "C109", "title": "Callbacks see the bytes in order, whatever they do", "statement": "BlockEncryption::encrypt and decrypt hand the callback exactly the bytes of the message, in order, whatever the callback does with them; if the callback panics, it has received exactly the bytes before that point and nothing after it, and its panic reaches the caller. When encrypting, the bytes of a block are handed out before the next block goes through the cipher; when decrypting, a block is handed out only after the next one has been decrypted, and nothing of the last block is handed out if its padding is bad.", "quantifier": "all callbacks (with their own state, panicking at any time), modes, ciphers, messages and ciphertexts", "why_tests_cant": "It ranges over all callbacks, in particular over every point at which one can panic.", "anchors": ["src/lib.rs: BlockEncryption::encrypt, BlockEncryption::decrypt"]}
{"id": "C110", "title": "Stream encryption is lazy and wastes no key bytes", "statement": "The iterator returned by StreamCipher::encrypt does nothing until it is asked for a byte, and takes one byte of data and then one key byte per byte asked for; it works for infinite and panicking data iterators. When the data ends or panics no key byte is taken. So any history of calls whose iterators are dropped early is one encryption of the bytes that were actually taken.", "quantifier": "all key iterators, all data iterators (infinite, panicking, resuming after None), all numbers of bytes taken, all histories", "why_tests_cant": "It ranges over all iterators and all histories of abandoned calls.", "anchors": ["src/lib.rs: StreamCipher::encrypt", "src/rc/rc4.rs: KeyStream"]}
{"id": "C111", "title": "Every calculation with BigUints gives what natural numbers give", "statement": "Any sequence of constructions, additions, subtractions without underflow, remainders by non-zero numbers, shifts and bit updates on BigUint variables, in any order and with any reuse of results, never panics, and every bit length, bit, comparison, equality, byte string and u128 read from them along the way is the one of the same calculation on natural numbers. (Outside: shifting zero left by 8 or more, shifting right by more than the stored bytes plus one, clearing the top byte with update, numbers over 2^31 bits.)", "quantifier": "all finite programs over unboundedly many variables, all literals", "why_tests_cant": "It ranges over all histories of operations.", "anchors": ["src/big/uint.rs: BigUint (all public operations)"]}
{"id": "C112", "title": "RSA messages with any padding scheme", "statement": "encrypt_message asks the padding scheme, with an empty label, for an encoding with as many bytes as the modulus, panics if the scheme panics or the encoding is not below the modulus, and otherwise returns its modular power in the shortest form. decrypt_message gives the scheme the decrypted number padded with zeros to the length of the ciphertext and panics if it does not fit or the scheme fails. So every scheme that decodes its own encodings round-trips whenever the ciphertext is as long as the modulus; for shorter ciphertexts the scheme sees the encoding without its first bytes if these are zero, and otherwise decryption panics.", "quantifier": "all padding schemes (arbitrary functions that may panic), keys, messages and ciphertexts up to 256 MB (moduli of at most 2^31 - 8 bits and exponents of at most 2^32 - 8 bits: bits are counted in 32-bit numbers)", "why_tests_cant": "PaddingScheme is a public trait: the schemes are not known to the tests.", "anchors": ["src/rsa/mod.rs: PaddingScheme, RsaEncryption::encrypt_message, RsaEncryption::decrypt_message"]}
{"id": "C113", "title": "Error messages identify the cause", "statement": "The text of every error of the ASN.1 parser, of the conversions from PEM to RSA keys, of PEM decoding (about its BEGIN and END lines) and of as_u128 is exactly the documented sentence with the tags, lengths, nesting and values of the input in it, and two inputs with the same text were rejected for the same reason. The printed (Debug) form of an ASN.1 value, which is part of some messages, determines the value.", "quantifier": "all byte strings, PEM structures, texts, numbers and ASN.1 values", "why_tests_cant": "It ranges over all rejected inputs; that no two causes share a text is a statement about pairs of inputs.", "anchors": ["src/pem/asn1.rs: Asn1::parse_from_bytes, TryFrom<&[u8]>", "src/rsa/asn1.rs: TryFrom<Asn1>", "src/pem/mod.rs: PEM, decode_pem", "src/big/uint.rs: BigUint::as_u128"]}
{"id": "C114", "title": "OAEP decoding says what is wrong, exactly", "statement": "OAEP decoding of an input of the right length looks at the data block under the masks, which exist and are unique unless the first byte is not 0: it returns the message behind the first 1 if the block starts with the hash of the label and only zeros are in between; otherwise it reports the first thing that is wrong - the first byte, the label, a missing separator, or a separator that is not 1.", "quantifier": "all hash functions, labels, seeds and data blocks; for RsaPadding all inputs below 2^32 bytes (labels below 2^61 bytes)", "why_tests_cant": "Input space; the decision must be right for every encoded block.", "anchors": ["src/rsa/oaep.rs: OAEP::decode", "src/rsa/pad.rs: RsaPadding"]}
{"id": "C115", "title": "RC2 objects keep exactly the effective key bits", "statement": "RC2::from_key with b effective bits makes exactly 2^b different expanded keys, over all keys of 1 to 128 bytes; two keys give the same one exactly when the effective bytes of the first half of the RFC 2268 expansion agree. Keys of the same length (2 bytes or more) with no fewer effective bits than key bits never give the same one; one-byte keys a and a + 128 do (up to 1016 effective bits).", "quantifier": "all pairs of keys of all lengths, all effective lengths", "why_tests_cant": "It counts a set of up to 2^1024 objects.", "anchors": ["src/rc/rc2.rs: RC2::from_key"]}
{"id": "C116", "title": "RSA ciphertexts that are not below the modulus are reduced, and acceptance is exact", "statement": "decrypt and decrypt_message do not reject numbers that are not below the modulus: ciphertexts of the same length that are congruent modulo n are treated alike with every padding scheme. So when the bit length of the modulus is not a multiple of 8, every full-length ciphertext has a different one of the same length with the same decryption. decrypt_message with RsaPadding returns m exactly for the ciphertexts that are congruent to the encryption of an OAEP encoding of m, with any seed, of the length of the ciphertext.", "quantifier": "all keys with moduli up to 2^31 - 8 bits, ciphertexts up to 256 MB, padding schemes and messages", "why_tests_cant": "Which of all ciphertexts are accepted is a statement about the whole input space.", "anchors": ["src/rsa/mod.rs: RsaEncryption::decrypt, RsaEncryption::decrypt_message", "src/rsa/pad.rs: RsaPadding"]}
{"id": "C117", "title": "ASN.1 parsing for every width of usize", "statement": "On a target whose usize has w bits (7 to 64) the ASN.1 parser does on inputs below 2^w bytes what it does on 64-bit targets, except where the 64-bit parser reports a declared length of 2^w or more that the input does not have. In particular 32-bit targets accept, with the same result, everything that 64-bit targets accept, and panic where they panic. They accept more: a declared length of 2^32 + 1 is taken for 1.", "quantifier": "all byte strings, all widths", "why_tests_cant": "Tests run on one target; it ranges over all inputs.", "anchors": ["src/pem/asn1.rs: Asn1, TryFrom<&[u8]> for Asn1"]}
{"id": "C118", "title": "MD4 and MD5 for every width of usize", "statement": "On a target whose usize has w bits (16 to 64), MD4 and MD5 of a message below 2^(w-3) bytes are the digests of the RFCs. From there on builds with overflow checks panic, however long the message is; builds without return the digest with the length in bits taken modulo 2^w, which for w < 64 is not the padding of the RFCs. On 32-bit targets the limit is 512 MiB; hash takes an iterator, so such messages need not fit in memory.", "quantifier": "all messages, all widths, both build profiles", "why_tests_cant": "Tests run on one target, and not with messages of 512 MiB.", "anchors": ["src/md/md4.rs: hash, Hasher", "src/md/md5.rs: hash, Hasher"]}
{"id": "C119", "title": "Printing a PEM structure to a formatter that fails", "statement": "Display for PEM offers the formatter the pieces of one fixed text (the one that to_string returns), in order, whatever the formatter does, and stops at the first piece that is refused. It returns Ok exactly if none is refused, and then the formatter took the whole text; otherwise what the formatter took is a beginning of the text and nothing is offered behind the refused piece. A buffer of n characters succeeds exactly if the text has at most n characters.", "quantifier": "all formatters (arbitrary code with a state that may refuse any write), all PEM structures, every point of failure", "why_tests_cant": "The formatter is foreign code and may fail at every write; tests use to_string, which never fails.", "anchors": ["src/pem/mod.rs: Display for PEM"]}
{"id": "C120", "title": "RC4 ciphers, counted, and the second byte of the key stream", "statement": "Over all keys rc4::new makes exactly 256! different ciphers: every permutation is the table of some 256-byte key. So different keys share ciphers, some cipher has at least 2^360 keys of 256 bytes. Whenever the scheduled table has 0 in place 2 and not 2 in place 1, the second key byte is 0 and the second byte of every message is sent in the clear.", "quantifier": "all keys, all permutations, all messages", "why_tests_cant": "It counts the outcomes over all keys, and exhibits no key.", "anchors": ["src/rc/rc4.rs: KeyStream::new, KeyStream::encrypt"]}
{"id": "C121", "title": "What failed block decryptions reveal", "statement": "Whether BlockEncryption::decrypt panics on whole blocks depends on nothing but the last byte of the last decrypted block, and the number of bytes emitted tells that byte. So for every even block size (8 and 16 are) and every cipher, somebody who holds a CBC ciphertext and sees which of 256 two-block ciphertexts make decrypt panic can compute the last byte of every block of the padded message, without the key and without knowing the initial vector in use.", "quantifier": "all invertible ciphers, in particular AES, RC2 and RC5 with every key; all initial vectors, messages and blocks", "why_tests_cant": "An attack that works for every key and message is a statement about all of them.", "anchors": ["src/lib.rs: BlockEncryption::decrypt", "src/pad.rs: PkcsPadding::unpad"]}
{"id": "C122", "title": "What RSA ciphertexts reveal without the private key", "statement": "Textbook RSA: the decryption of c * r^e is m * r; the ciphertext of a number whose e-th power is below the modulus is that power; a number encrypted under two coprime exponents and one modulus is the only solution of a linear congruence made from the ciphertexts. Because the padding seed is constant this extends to encrypt_message: the same message sent to e recipients with pairwise coprime, equally long moduli and exponent e is the decoding of the e-th root of the number that the Chinese remainder theorem makes from the ciphertexts; and the same message under two coprime exponents of one modulus is found by the linear congruence.", "quantifier": "all keys, messages and numbers of recipients (moduli of at most 2^31 - 8 bits and exponents of at most 2^32 - 8 bits: bits are counted in 32-bit numbers)", "why_tests_cant": "An attack that works for all keys and messages cannot be established by trying some.", "anchors": ["src/rsa/mod.rs: RsaEncryption::encrypt, RsaEncryption::decrypt, RsaEncryption::encrypt_message", "src/rsa/oaep.rs: OAEP::encode"]}
{"id": "C123", "title": "Numbers that RSA does not change, counted", "statement": "With a modulus made of two different primes p and q and exponent e exactly (1 + gcd(e-1, p-1)) * (1 + gcd(e-1, q-1)) numbers below the modulus are their own ciphertexts: at least nine for odd primes and odd e, whatever the key. Encryption changes nothing at all exactly if e is 1 modulo p-1 and modulo q-1, and create_keys accepts such exponents, for instance 1.", "quantifier": "all pairs of primes, all exponents, all numbers (moduli of at most 2^31 - 8 bits and exponents of at most 2^32 - 8 bits: bits are counted in 32-bit numbers)", "why_tests_cant": "It counts the outcomes over all numbers below the modulus.", "anchors": ["src/rsa/mod.rs: RsaEncryption::encrypt, create_keys"]}
{"id": "C124", "title": "RC5 with no rounds", "statement": "RC5::new accepts 0 rounds. Such a cipher only adds a constant to each half of the block, so one plaintext block with its ciphertext determines the plaintext of every other ciphertext block without the key.", "quantifier": "all keys, all blocks", "why_tests_cant": "An attack that works for all keys and blocks.", "anchors": ["src/rc/rc5.rs: RC5::new, RC5::encrypt"]}
{"id": "C125", "title": "The work of RSA and what it reveals", "statement": "Counting calls of mul_mod, of the remainder operator and rounds of its loop: a decryption with private exponent d makes exactly one modular multiplication per binary digit of d and a second one per digit 1, whatever the ciphertext and modulus, so the count tells the number of ones in d. The number of remainders is a sum over the digits of d in which digit j decides whether a quantity computable from the ciphertext and the modulus alone is added once or twice. An operation on a number below the modulus takes at most 8 * bits(e) * bits(n) rounds of the division loop. The search for the private exponent in create_keys takes at most 186 rounds.", "quantifier": "all exponents, moduli and messages (within the sizes BigUint supports)", "why_tests_cant": "Timings of examples suggest but cannot establish a count for all keys or a bound on the work.", "anchors": ["src/rsa/mod.rs: RsaEncryption::encrypt, RsaEncryption::decrypt, mul_mod, pow_mod, inverse", "src/big/uint.rs: RemAssign for BigUint"]}
{"id": "C126", "title": "What the panic messages of RSA decryption reveal", "statement": "decrypt_message panics with the text of the decoding error, and the text `first byte is not 0` appears exactly if the decrypted number does not start with a zero byte. So an attacker with the public key and a ciphertext that decrypts to a number with a zero first byte (every ciphertext of encrypt_message does) finds that number, and with it the message, by asking for decryptions of related ciphertexts and learning from each only whether that text appeared: at most 24 questions per byte of the modulus plus 512, for every modulus whose highest byte is at least 2.", "quantifier": "all key pairs, ciphertexts and messages (moduli of at most 2^31 - 8 bits and exponents of at most 2^32 - 8 bits: bits are counted in 32-bit numbers)", "why_tests_cant": "An attack that works for all keys and messages, with a bound on the questions, cannot be established by trying some.", "anchors": ["src/rsa/mod.rs: RsaEncryption::decrypt_message", "src/rsa/oaep.rs: OaepPadding::decode"]}
{"id": "C127", "title": "Key generation, exactly", "statement": "For every p, q and e, primes or not, create_keys either panics in a way that is known from the numbers alone (arguments over 16 bytes, p*q over 128 bits or p or q zero, p = q = 1, e without an inverse modulo l = lcm(p-1, q-1), or l at least 2^127 with e neither 1 nor -1 modulo l), or returns exactly the keys (p*q, d) and (p*q, e), stored without leading zeros, where d is the only inverse of e in 1..l-1. For two primes with a product below 2^128 only a missing inverse makes it panic.", "quantifier": "all p, q, e", "why_tests_cant": "The extended Euclidean algorithm runs on signed 128-bit numbers; that its coefficients fit in them, or exactly when they do not, is a statement about all of them.", "anchors": ["src/rsa/mod.rs: create_keys, inverse, lcm"]}
{"id": "C128", "title": "The numbers in key files and their signs", "statement": "A key made from a PKCS#8 or SubjectPublicKeyInfo file has exactly the modulus and exponent that the ASN.1 integers in the file stand for, and a file with negative numbers is rejected.", "quantifier": "all files that are accepted, with all contents of the integers", "why_tests_cant": "The files are unlimited in number and size; tests use the files of one tool, which writes no negative numbers.", "anchors": ["src/rsa/asn1.rs: PrivateKey::from_asn1, PublicKey::from_asn1", "src/rsa/mod.rs: TryFrom<PEM>", "src/big/uint.rs: BigUint::from_be_bytes"]}
{"id": "C129", "title": "What the table lookups of AES reveal", "statement": "Encrypting or decrypting a block with AES looks up 16 places per round in the tables of the code and does nothing else with them: the result is that of the cipher. The number of lookups is 16 per round for all keys and blocks, but the places are not constant: the first 16 of an encryption are the plaintext xor the first 16 bytes of the key, so they and the block give away a 128-bit key, the first 32 give away any key, the lines of the table that are touched give away the upper bits of the key bytes, and the first 16 places of a decryption determine a 128-bit key, the first 32 a longer one.", "quantifier": "all keys of the three sizes, all blocks, all sizes of lines", "why_tests_cant": "What memory a program touches is no value that a test sees, and the claim is about all keys and blocks.", "anchors": ["src/aes/cipher.rs: Aes, BlockCipher for Aes, Substitute", "src/aes/sbox.rs: SBOX"]}
{"id": "C130", "title": "What parsing ASN.1 uses", "statement": "On every input of n bytes, whether it is accepted, rejected or makes the parser panic, the parser calls itself at most n/2 + 1 times, at most as many of these calls are active at the same time, and it copies at most (n/2)^2 bytes. For accepted inputs there is exactly one call for each value, as many at a time as values are inside each other; for DER encodings the copied bytes are exactly the contents of all values. The square is reached up to a constant: there are accepted inputs with k sequences inside each other, at most ten bytes for each, where k + 1 calls are active at the same time and keep more than k^2 bytes of copies, so a file of 164 kB makes the parser keep 256 MiB.", "quantifier": "all byte strings; all nesting depths k below 2^60", "why_tests_cant": "All lengths and nestings; resource use of hostile files does not show in tests of results.", "anchors": ["src/pem/asn1.rs: Asn1::parse_from_bytes, TryFrom<&[u8]> for Asn1"]}
{"id": "C131", "title": "How many blocks and ciphertexts unpadding accepts", "statement": "Of the 256^N blocks of N bytes, PkcsPadding::unpad accepts min(N + 1, 256) * 256^(N-1), although only (256^N - 1) / 255 of them are paddings of an input (N at most 255); BitPadding::unpad accepts 256^N - 255^N, with the same number of paddings. Hence decryption in ECB mode with an invertible cipher, whatever the key, accepts min(N + 1, 256) of 256 ciphertexts of every positive number of blocks: 17 of 256 for AES.", "quantifier": "all block sizes, all invertible ciphers and keys, all numbers of blocks", "why_tests_cant": "A count over all blocks and all ciphertexts of a length.", "anchors": ["src/pad.rs: PkcsPadding, BitPadding", "src/lib.rs: BlockEncryption::decrypt, EcbMode"]}
{"id": "C132", "title": "Which RSA keys work", "statement": "Encryption followed by decryption returns every number below the modulus exactly if no square (other than 1) divides the modulus and the product of the exponents leaves 1 modulo r - 1 for each of its prime factors r, or both exponents are 1. For a product of two different primes that is exactly e d = 1 modulo the least common multiple of p - 1 and q - 1. create_keys called with the same prime twice makes keys that lose numbers unless both exponents are 1; keys from numbers that are not prime may work (561 and 5) or not (9 and 5).", "quantifier": "all moduli of at least 2, all pairs of exponents within the size limits of the big integers, all results of create_keys (moduli of at most 2^31 - 8 bits and exponents of at most 2^32 - 8 bits: bits are counted in 32-bit numbers)", "why_tests_cant": "The equivalence is about all messages and all keys at once; a test can find one message that is lost but not show that none is, nor that the condition is necessary.", "anchors": ["src/rsa/mod.rs: RsaEncryption::encrypt, RsaEncryption::decrypt", "src/rsa/mod.rs: create_keys"]}
{"id": "C133", "title": "An RSA ciphertext shows the Jacobi symbol of its message", "statement": "For every odd public exponent the ciphertext has the same Jacobi symbol modulo n as the message, which anyone with the public key can compute. All keys with an odd modulus that work, and all keys create_keys returns for an odd first number, have an odd exponent. So two messages with different symbols are told apart without the private key.", "quantifier": "all messages, all moduli of at least 2, all odd exponents; all working keys; all results of create_keys (moduli of at most 2^31 - 8 bits and exponents of at most 2^32 - 8 bits: bits are counted in 32-bit numbers)", "why_tests_cant": "What every ciphertext reveals is a statement about all messages and keys.", "anchors": ["src/rsa/mod.rs: RsaEncryption::encrypt", "src/rsa/mod.rs: create_keys"]}
{"id": "C134", "title": "What the places RC4 uses of its table reveal, and no forward secrecy", "statement": "KeyStream::new and next use places of their 256-byte table that depend on the key. The 256 places of the setup are the key to anyone who knows the algorithm: a program computes key byte i mod length from them, and so the whole key if it has at most 256 bytes. The places used for the first 256 or more key bytes alone give away the whole object at that point. From an object all bytes that were ever drawn from it can be computed backwards, so places or an object give away the past and the future.", "quantifier": "all non-empty keys, all numbers of bytes drawn (at least 256 for the second claim), all objects", "why_tests_cant": "What memory a program touches is no value that a test sees, and the claim is about all keys.", "anchors": ["src/rc/rc4.rs: KeyStream::new", "src/rc/rc4.rs: KeyStream::next_key, Iterator for KeyStream"]}
{"id": "C135", "title": "What the table lookups of the RC2 key expansion reveal", "statement": "RC2::from_key reads its table PITABLE at 128 - T + 1 + 128 - T8 places, for T key bytes and T8 effective bytes, that depend on the key. They are the key to anyone who knows the algorithm, for keys of 2 to 64 bytes, and for effective lengths of at most 512 bits they determine the cipher whatever the key length. Keys of one byte go in pairs that make the same cipher (the highest bit is without influence) unless the effective length is 1024 bits.", "quantifier": "all keys of 1 to 128 bytes, all effective lengths", "why_tests_cant": "What memory a program touches is no value that a test sees; that two keys make the same cipher is a statement about all blocks.", "anchors": ["src/rc/rc2.rs: RC2::from_key, RC2::expand_key", "src/rc/rc2.rs: PITABLE"]}
{"id": "C136", "title": "What the table lookups of MD2 reveal", "statement": "md2::hash reads its table at 880 places for each block of the padded message and for the checksum block. The places are the message to anyone who knows the algorithm: a program computes it from them. So different messages use different places.", "quantifier": "all messages", "why_tests_cant": "What memory a program touches is no value that a test sees, and the claim is about all messages.", "anchors": ["src/md/md2.rs: hash, Hasher"]}
{"id": "C137", "title": "The order of the multiplications of an RSA decryption is the private exponent", "statement": "RsaEncryption::decrypt calls the modular multiplication once or twice for each binary digit of the private exponent, and which of the two calls are made is the exponent: it can be read off the calls made for a single ciphertext. The calls are the same for all ciphertexts and all moduli.", "quantifier": "all private exponents within the size limits, all ciphertexts and moduli for which decryption returns (it does for all moduli of at least 2 within the size limits) (moduli of at most 2^31 - 8 bits and exponents of at most 2^32 - 8 bits: bits are counted in 32-bit numbers)", "why_tests_cant": "The order of calls is no value that a test sees, and the claim is about all keys and ciphertexts.", "anchors": ["src/rsa/mod.rs: RsaEncryption::decrypt, pow_mod"]}
{"id": "C138", "title": "Differences spread in AES", "statement": "If two different blocks are encrypted (or decrypted) with the same key, then in every round at least one lookup in the S-box is different, in any two consecutive rounds at least 5 and in any four consecutive rounds at least 25, whatever the key and the blocks; in a whole encryption at least 55, 75 or 80 for the three key lengths. If the blocks differ in one byte, exactly 1, 4 and 16 lookups of the first three rounds are different. Behind the S-box each difference occurs for at most 4 of the 256 inputs.", "quantifier": "all keys of the three lengths, all pairs of different blocks, all rounds", "why_tests_cant": "The pairs of blocks and keys are 2^256 and more; a test sees a sample of them, and the differences inside are not output.", "anchors": ["src/aes/cipher.rs: Aes::encrypt, Aes::decrypt", "src/aes/cipher.rs: ShiftRows, MixColumns, Substitute", "src/aes/sbox.rs: SBOX"]}
{"id": "C139", "title": "Whoever has both exponents of an RSA modulus has its primes", "statement": "Let n be the product of two different primes and let the two exponents, not both 1, undo each other. Then the method of Miller, which looks for common factors of n with a^(k/2^j) - 1 for k = e d - 1, gives for at least half of the bases a below n one of the two primes, and never anything else. This holds for all keys that create_keys makes from two different primes with e other than 1, and for all keys of such a modulus that work at all. So a modulus cannot be shared: a holder of one key pair can make the private key of every other.", "quantifier": "all pairs of different primes, all pairs of exponents with product above 1 that work, all keys returned by create_keys from such primes, all bases counted (moduli of at most 2^31 - 8 bits and exponents of at most 2^32 - 8 bits: bits are counted in 32-bit numbers)", "why_tests_cant": "a statement about the number of bases for every pair of primes and exponents", "anchors": ["src/rsa/mod.rs: create_keys, PrivateKey, PublicKey", "src/rsa/mod.rs: RsaEncryption::encrypt, RsaEncryption::decrypt"]}
{"id": "C140", "title": "A small private exponent is found from the public key", "statement": "create_keys does not reject public exponents whose private exponent is small, and such keys are no secret: if 2 (d g)^2 (p + q) is at most the modulus, where g is the greatest common divisor of p - 1 and q - 1 (for primes of about the same size: if 20 (d g)^4 is at most the modulus), the public exponent is at most (p - 1)(q - 1) and the product of the exponents is above it, then the method of Wiener finds both primes from the public key alone, trying at most two convergents per bit of the modulus and one more. It never returns anything but two factors of the modulus.", "quantifier": "all pairs of different primes, all pairs of exponents within the bounds, all keys returned by create_keys from such numbers; all moduli for soundness", "why_tests_cant": "a statement about all keys with small exponents; a test finds single keys", "anchors": ["src/rsa/mod.rs: create_keys, PrivateKey, PublicKey"]}
{"id": "C141", "title": "MD2, MD4 and MD5 use an iterator exactly up to its end, its panic or the overflow, in constant memory", "statement": "The iterator given to md2::hash, md4::hash and md5::hash may be arbitrary code. If it yields some bytes and then None, the result is the digest of exactly these bytes and the iterator is not asked again. If it panics, that panic reaches the caller and the iterator is not asked again. With overflow checks MD4 and MD5 use up an iterator of 2^61 or more but fewer than 2^64 bytes and then panic, and they panic at byte number 2^64 of an iterator that has that many; without the checks, and for MD2 always, the digest is right for every finite length and the call never returns when the iterator never ends. Between two bytes MD2 holds fewer than 16 bytes of the input, and MD4 and MD5 fewer than 64: the length so far modulo the block size.", "quantifier": "all iterators: arbitrary code with effects on arbitrary state, which may panic, never end, or yield again after None; all lengths", "why_tests_cant": "An iterator is code of the caller; the boundaries are 2^61 and 2^64 bytes, and no test observes a call that never returns.", "anchors": ["src/md/md2.rs: hash, Hasher::consume, Hasher::finish", "src/md/md4.rs: hash, Hasher::consume, Hasher::finish", "src/md/md5.rs: hash, Hasher::consume, Hasher::finish"]}
{"id": "C142", "title": "The S-box of AES is far from linear", "statement": "Select any bits of the input of the AES S-box and any bits (at least one) of its output: the sums modulo 2 of the two selections agree for at least 112 and at most 144 of the 256 inputs, and both bounds are reached. The same holds for the inverse S-box. A sum of output bits alone is 0 for exactly 128 inputs. No byte is replaced by itself or its complement.", "quantifier": "all 256 masks of input bits, all 255 masks of output bits, all 256 inputs, for the tables that the crate computes", "why_tests_cant": "The tables are computed by the code and private; encryption tests show single entries of them. A table with wrong entries may pass every round-trip test, since only the inverse has to match.", "anchors": ["src/aes/sbox.rs: SBOX, calculate_sbox", "src/aes/cipher.rs: Substitute"]}
{"id": "C143", "title": "Printing a key for debugging prints all of it", "statement": "What {:?} prints of a number, a hash value, a public or a private key contains the bytes of its numbers in decimal, in order, and a simple reader gets them back from the text for every value. So the text of a private key, of create_keys for example, is enough to decrypt every message. Two private keys are equal (==) exactly if they print the same text; for normalised numbers exactly if their numbers are the same.", "quantifier": "all byte lists, all keys, all hash values of all lengths, all messages below the modulus", "why_tests_cant": "A test prints one key; that no part of any key is hidden, shortened or ambiguous, and that the exponent is always in the text, is about all of them.", "anchors": ["src/rsa/mod.rs: PrivateKey, PublicKey (derive Debug, PartialEq)", "src/big/uint.rs: BigUint (derive Debug)", "src/sha/hash.rs: HashValue (derive Debug)"]}
{"id": "C144", "title": "A secret behind a text of somebody else's choice can be read byte by byte", "statement": "If a program encrypts a text chosen by somebody else followed by a secret with EcbMode, and shows the ciphertext, then one fixed procedure, which knows neither cipher, key, block size nor length of the secret and looks only at the ciphertexts it asks for, always ends with exactly the secret, after at most 257 questions per byte and N + 1 more. The same holds for every mode of a user that starts each encryption in the same state, for example CBC with an initialisation vector used again.", "quantifier": "all block sizes from 1 to 255, all invertible ciphers (AES, RC2 and RC5 with all keys), all modes whose encryption can be undone, all start states, all secrets of all lengths", "why_tests_cant": "A test can try the procedure on one key and one secret; that no key, no length of the secret and no alignment makes it fail or take longer is about all of them.", "anchors": ["src/lib.rs: BlockEncryption::encrypt, EcbMode, BlockCipherMode", "src/pad.rs: PkcsPadding::pad", "src/aes/cipher.rs: encrypt", "src/rc/rc2.rs: encrypt", "src/rc/rc5.rs: encrypt"]}
{"id": "C145", "title": "The amounts of the rotations of RC5 reveal its expanded key", "statement": "RC5 rotates words by amounts that depend on the key. Every decryption makes exactly 2 * rounds such rotations. Whoever may have blocks of their choice decrypted and sees the plaintexts and the amounts (the last five bits, all that matters) finds the complete cipher object for every key and every number of rounds but 0, by one fixed procedure with 64 * rounds + 32 questions, and can then decrypt everything.", "quantifier": "all keys of 1 to 255 bytes, all numbers of rounds from 1 to 255, all blocks", "why_tests_cant": "A test can run the procedure on one key; that no key resists it, that no question is wasted on some key, and that the amounts always have this meaning is about all keys.", "anchors": ["src/rc/rc5.rs: RC5::decrypt_32, RC5::new, BlockCipher::decrypt"]}
{"id": "C146", "title": "The other standard modes can be added from outside and are right", "statement": "The modes CFB, OFB and CTR of NIST SP 800-38A, written by a user as a BlockCipherMode with the forward cipher only, give every message back for every cipher whose encrypt does not panic, even if its decrypt is wrong or panics. What is emitted is what the standard says: block i of the padded message xored with the encryption of iv + i (CTR), with the cipher applied i + 1 times to iv (OFB), or with the encryption of the ciphertext block before it (CFB). With an initialisation vector used again none of them protects a secret behind a text of somebody else's choice.", "quantifier": "all block sizes from 1 to 255 (the layout: all from 1), all ciphers with total encryption, all initialisation vectors including counters that wrap around, all messages", "why_tests_cant": "The trait promises to call the mode once for every block in order with one state; a test shows this for one mode and a few blocks, not for all messages and counters.", "anchors": ["src/lib.rs: BlockCipherMode, BlockEncryption::encrypt, BlockEncryption::decrypt"]}
{"id": "C147", "title": "A caught panic leaves a BigUint as it was", "statement": "If +=, -=, %=, <<=, >>= or update on a BigUint panics and the panic is caught, the number has exactly the bytes it had before the call: no operation panics after its first write. So a program that catches panics goes on as if the calls that panic had been left out.", "quantifier": "all numbers of at most 2^28 bytes, normalised or not, all operands (divisors below 2^29 bytes), all allocator capacities, all histories of calls with panics caught at any of them", "why_tests_cant": "A test can catch the panics it provokes; that no path writes before it panics has to be shown for all operands and all points at which a panic is possible.", "anchors": ["src/big/uint.rs: AddAssign, SubAssign, RemAssign, ShlAssign, ShrAssign, BigUint::update"]}
{"id": "C148", "title": "RC4 keys that begin with public bytes betray the next one", "statement": "If the first bytes of an RC4 key are known, as when a public initialisation vector is put in front of a secret, and the table they lead to resolves (this can be calculated from them; the vectors (A+3, 255, x) do so unless a checkable step touches the first two places, and (3, 255, x) for all x but two), the next byte of the key is calculated from the first byte of any message and of its ciphertext, for every rest of the key whose scheduling leaves three places of the table alone.", "quantifier": "all known beginnings of fewer than 256 bytes, all keys that continue them, all messages", "why_tests_cant": "It is an attack on whole families of keys; a test vector shows one key.", "anchors": ["src/rc/rc4.rs: KeyStream::new, KeyStream::next_key, KeyStream::encrypt", "src/lib.rs: StreamCipher"]}
{"id": "C149", "title": "An RSA operation needs memory in proportion to the modulus", "statement": "An encryption or decryption never makes a vector longer than the longer of the message and the modulus and three bytes (more only by what the allocator adds to a request of that length), whatever the exponent.", "quantifier": "all moduli of at least 2, messages and exponents within the limits of the bit counter, all allocators", "why_tests_cant": "The numbers in between depend on all of message, exponent and modulus; a test measures some.", "anchors": ["src/rsa/mod.rs: mul_mod, pow_mod, RsaEncryption::encrypt, RsaEncryption::decrypt", "src/big/uint.rs: AddAssign, SubAssign, RemAssign, ShlAssign"]}
{"id": "C150", "title": "k collisions give 2^k messages with one hash value", "statement": "Whoever can find, behind any beginning, two equally long continuations with the same MD4 (MD5, SHA-1, SHA-256, SHA-512) gets with k such searches 2^k different, equally long messages that all have one hash value (Joux). So 161 pairs of MD5 contain two messages that agree in both MD5 and SHA-1: using the two together is hardly better than the better one.", "quantifier": "all ways to find pairs, all numbers of searches with messages below the limit of the hash function", "why_tests_cant": "It is about all collision searches and about exponentially many messages.", "anchors": ["src/md/md4.rs: hash", "src/md/md5.rs: hash", "src/sha/sha1.rs: sha1", "src/sha/sha2.rs: sha256, sha512"]}
{"id": "C151", "title": "Keys made from close, smooth or shared primes are broken", "statement": "create_keys does not look at the quality of its primes. For all odd primes p >= q Fermat's method finds them from the public modulus alone, with exactly (p+q)/2 minus the rounded-up root of n failed tries, hence within t tries if (p-q)^2 < 8 t sqrt(n); Pollard's method finds p if p-1 divides B! (and the base does not do the same for q); the common divisor of two moduli with one common prime is that prime. What Fermat's method returns always is a factorisation.", "quantifier": "all primes and all keys that create_keys returns for them, all numbers of tries, bases and bounds", "why_tests_cant": "It is about all pairs of primes and about what can be computed from the key.", "anchors": ["src/rsa/mod.rs: create_keys, PublicKey"]}
{"id": "C152", "title": "Two messages with a known relation under exponent 3 are found from their ciphertexts", "statement": "If m and α m + β modulo n (α and β known) are both encrypted with the textbook encrypt under the public exponent 3, then m is a solution of a linear congruence made from α, β and the two ciphertexts, and the only one if its coefficient has no common factor with n; a common factor other than n is one of the primes of n (Franklin and Reiter).", "quantifier": "all moduli, messages and relations, all allocators (moduli of at most 2^31 - 8 bits and exponents of at most 2^32 - 8 bits: bits are counted in 32-bit numbers)", "why_tests_cant": "It is about all pairs of messages with a relation and about what can be computed from ciphertexts.", "anchors": ["src/rsa/mod.rs: RsaEncryption::encrypt, pow_mod"]}
{"id": "C153", "title": "The time of RSA decryption reveals Manger's bit and the length of the message", "statement": "OAEP decoding hashes nothing if the first byte is not zero and otherwise a number of times that only depends on the length of the key; if the label is right the search for the separator looks at a number of bytes that is the length of the data block less the length of the message. So from the amount of work alone, without seeing any result or panic message, the lengths of messages can be compared, and an attacker who can tell whether anything was hashed finds the number that a ciphertext decrypts to with at most 24 questions for each byte of the modulus and 512 more.", "quantifier": "all hash functions, labels, inputs, seeds, messages, key pairs whose modulus has a highest byte of at least 2, ciphertexts and allocators (moduli of at most 2^31 - 8 bits and exponents of at most 2^32 - 8 bits: bits are counted in 32-bit numbers) (labels below 2^61 bytes)", "why_tests_cant": "It is about the amount of work for all inputs and about an adaptive attacker.", "anchors": ["src/rsa/oaep.rs: OaepPadding::decode", "src/rsa/mgf.rs: mgf1", "src/rsa/mod.rs: RsaEncryption::decrypt_message"]}
{"id": "C154", "title": "What modified, cut and re-vectored ciphertexts decrypt to", "statement": "Changing a block of a ciphertext that is followed by at least two more changes nothing but at most two blocks of the decrypted message, and not whether decryption succeeds: under ECB the block itself; under CBC the block itself and, in the next one, exactly the bits that were changed; under CFB the same bits and the next block; under OFB and CTR just the same bits. Changing the initial vector of CBC flips these bits of the first block. From the end of a CBC or CFB ciphertext everything but its first block is still decrypted correctly. So nothing notices a modification.", "quantifier": "all block sizes, invertible block ciphers (with the three of the crate for all keys), ciphertexts, modified blocks, positions and initial vectors", "why_tests_cant": "It is about all modifications of all ciphertexts.", "anchors": ["src/lib.rs: BlockEncryption::decrypt, BlockCipherMode, EcbMode"]}
{"id": "C155", "title": "Equal blocks of a ciphertext reveal the difference of blocks of the message", "statement": "Under CBC two ciphertext blocks are equal exactly if the two message blocks differ by the (public) difference of the two ciphertext blocks before them, and under CFB the same holds one block further. A message of more than 256^N blocks always has such a pair. Under CTR nothing repeats before all counters are used, so the ciphertext excludes one difference for every pair of message blocks.", "quantifier": "all block sizes, invertible block ciphers (with the three of the crate for all keys), initial vectors, messages and pairs of blocks", "why_tests_cant": "It is about all messages; those for which it is certain are far too long to test.", "anchors": ["src/lib.rs: BlockEncryption::encrypt, BlockCipherMode", "src/rc/rc2.rs: RC2", "src/rc/rc5.rs: RC5"]}
{"id": "C156", "title": "Encrypting an RSA ciphertext again and again reveals the message", "statement": "Encrypting k times is raising to the power e^k. For every key pair there is a number of encryptions, at most the least common multiple of p - 1 and q - 1, that brings every number back; whenever a ciphertext comes back after k + 1 encryptions, what came after k of them is the message. If it comes back modulo one prime and not modulo the other, a greatest common divisor is that prime.", "quantifier": "all key pairs, messages, numbers of encryptions and allocators (moduli of at most 2^31 - 8 bits and exponents of at most 2^32 - 8 bits: bits are counted in 32-bit numbers)", "why_tests_cant": "It is about all messages and numbers of encryptions that are too large to try.", "anchors": ["src/rsa/mod.rs: RsaEncryption::encrypt, pow_mod"]}
{"id": "C157", "title": "The last bit of RSA decryptions is enough to find the message", "statement": "For every key pair with an odd modulus and every ciphertext c of a number, as many ciphertexts as the modulus has bits, all made from c and the public key before the first answer, have this property: their decryptions' last bits (BigUint::is_set(0)) together determine the number, and a short public computation finds it. The same holds if one learns of each decryption only whether it is above half the modulus.", "quantifier": "all key pairs with odd modulus, messages and allocators (moduli of at most 2^31 - 8 bits and exponents of at most 2^32 - 8 bits: bits are counted in 32-bit numbers)", "why_tests_cant": "It is about all keys and messages of unlimited size.", "anchors": ["src/rsa/mod.rs: RsaEncryption::encrypt, decrypt", "src/big/uint.rs: BigUint::is_set"]}
{"id": "C158", "title": "The block ciphers are even permutations: the last two entries of a code book follow from the others", "statement": "For every key, AES, RC2 and RC5 (with any number of rounds) permute the blocks by an even permutation, and so does every sequence of encryptions and decryptions with any keys (for 8-byte blocks: RC2 and RC5 mixed). So two such sequences that agree on all blocks but two agree on these as well, and no sequence, however long, exchanges two blocks and leaves all others alone.", "quantifier": "all keys, rounds, blocks and sequences of encryptions and decryptions of any length", "why_tests_cant": "It is about all 2^64 or 2^128 blocks at once.", "anchors": ["src/aes/cipher.rs: encrypt, decrypt", "src/rc/rc2.rs: encrypt, decrypt", "src/rc/rc5.rs: encrypt, decrypt", "src/lib.rs: BlockCipher"]}
{"id": "C159", "title": "With a small public exponent the upper half of the private exponent is public", "statement": "For all keys that create_keys makes from two different primes (and for keys of any size made elsewhere with d at most lcm(p-1, q-1)), one of e numbers computed from the public key and g = gcd(p-1, q-1) is at least the private exponent and exceeds it by at most (p+q)/g. For primes of about the same size p+q has half the bits of the modulus, so with e = 3 three guesses contain the upper half of the private exponent.", "quantifier": "all pairs of different primes, exponents and keys", "why_tests_cant": "It is about all keys.", "anchors": ["src/rsa/mod.rs: create_keys, lcm, inverse"]}
{"id": "C160", "title": "The mask of the message padding is public and the same for all messages", "statement": "For every length of the modulus there is one sequence of bytes, the same for all keys, labels and messages, such that a message is the exclusive or of that sequence with the last bytes of its padded form: neither the seed nor any other byte is needed to read it, so the padding does not spread a message over the whole number. Two messages of the same length differ exactly as the last bytes of their padded forms do, whatever the labels, and with the same label all other bytes but the 32 of the masked seed are the same. So whoever learns the last bytes of the number that decrypt makes from a ciphertext of encrypt_message learns the message.", "quantifier": "all lengths of the modulus, keys, labels, pairs of messages and ciphertexts (moduli of at most 2^31 - 8 bits and exponents of at most 2^32 - 8 bits: bits are counted in 32-bit numbers) (labels below 2^61 bytes)", "why_tests_cant": "It is about all messages and keys; a test can only compare a few padded messages.", "anchors": ["src/rsa/oaep.rs: OaepPadding::encode (seed)", "src/rsa/mgf.rs: mgf1", "src/rsa/mod.rs: RsaEncryption::encrypt_message, RsaEncryption::decrypt"]}
{"id": "C161", "title": "For every suffix there is one hash value that it leaves unchanged", "statement": "For SHA-1, SHA-256, SHA-512, MD4 and MD5, every length of a message and every suffix that fits into one block there is one hash value such that appending the suffix to a padded message of that length leaves its hash value as it is exactly if it is this one. For every block there is exactly one value of the chaining variables that processing the block does not change.", "quantifier": "all lengths, messages, suffixes and blocks (below the limits of the hash functions: 2^61 bytes, for SHA-384 and SHA-512 2^64)", "why_tests_cant": "Nobody can try all messages or all values of the chaining variables.", "anchors": ["src/sha/sha1.rs: process_chunk", "src/sha/sha2.rs: process_chunk, process_big_chunk", "src/md/md4.rs: Hasher::process_block, Block::process", "src/md/md5.rs: Hasher::process_block, Block::process"]}
{"id": "C162", "title": "RSA messages are encrypted and decrypted in the same way on 32-bit and 64-bit targets", "statement": "Whether the target has 32-bit or 64-bit addresses, encrypt_message gives the same ciphertext or panics in the same way for every key and message, and decrypt_message gives the same message or panics in the same way for every key and every ciphertext that leaves 36 bytes of the address space free. The same holds for OAEP with any hash function. With 16-bit addresses it would not: no message could be encrypted with a modulus of 65537 to 66056 bits.", "quantifier": "all widths of usize from 32 to 64 bits, all keys, messages, ciphertexts, labels, hash functions and output lengths", "why_tests_cant": "Tests run on one target, and the lengths at which a sum or a conversion would overflow cannot all be tried.", "anchors": ["src/rsa/mgf.rs: mgf1", "src/rsa/oaep.rs: OaepPadding::encode, OaepPadding::decode", "src/rsa/mod.rs: RsaEncryption::encrypt_message, RsaEncryption::decrypt_message"]}
{"id": "C163", "title": "Short numbers under textbook RSA are found from a table of ciphertexts", "statement": "For every key pair and every k with k * k below the modulus, a table of the ciphertexts that encrypt makes of 1, 2, ..., k, which anyone can make with k encryptions under the public key, is enough to find every number a * b with a and b from 1 to k from its ciphertext: two entries of the table have the ciphertext as their product modulo n, and any two that do belong to numbers with this product.", "quantifier": "all key pairs, table sizes and products (moduli of at most 2^31 - 8 bits and exponents of at most 2^32 - 8 bits: bits are counted in 32-bit numbers)", "why_tests_cant": "Nobody can try all keys or all numbers; that no wrong pair of entries fits is a statement about all of them.", "anchors": ["src/rsa/mod.rs: RsaEncryption::encrypt"]}
{"id": "C164", "title": "Initial vectors of CBC that are known beforehand or are the key", "statement": "The crate leaves modes and their starting state to the caller. With cipher block chaining (CBC) added from outside, whoever knows the initial vector of the next message and may choose that message can test guesses for any block of an earlier one: a question computed from the guess, the ciphertext and the two vectors is answered by the earlier ciphertext block exactly if the guess is right. And whoever sees the decryption of a ciphertext of their choice learns the initial vector as the difference of two decrypted blocks, so it must not be the key.", "quantifier": "all ciphers whose encryption is invertible (AES, RC2 and RC5 with all keys), messages, block positions, initial vectors and guesses", "why_tests_cant": "That no wrong guess is confirmed is a statement about all keys, messages and guesses.", "anchors": ["src/lib.rs: BlockEncryption::encrypt, BlockEncryption::decrypt, BlockCipherMode"]}
{"id": "C165", "title": "Loading a key checks no relation between its numbers", "statement": "PrivateKey::try_from uses the modulus and the private exponent of a PKCS#8 file and accepts any values for the public exponent, the primes and the other numbers: files that agree in the two give the same key. Files with any numbers are accepted, and the keys loaded from a private and a public file with the same modulus undo each other on all numbers below it exactly if the modulus is divisible by no square other than 1 and the product of the exponents leaves 1 modulo r - 1 for each prime factor r, or both exponents are 1.", "quantifier": "all private and public key files in the standard encoding with a modulus of at least 2 (moduli of at most 2^31 - 8 bits and exponents of at most 2^32 - 8 bits: bits are counted in 32-bit numbers)", "why_tests_cant": "A test loads a few files; which of all inconsistent ones are accepted and what then happens cannot be listed.", "anchors": ["src/rsa/asn1.rs: PrivateKeyInfo::from_asn1, PrivateKey::from_asn1, PublicKey::from_asn1", "src/rsa/mod.rs: TryFrom<PEM> for PrivateKey, TryFrom<PEM> for PublicKey, RsaEncryption::encrypt, RsaEncryption::decrypt"]}
