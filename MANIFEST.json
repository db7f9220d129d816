{
 "claims": [
  {
   "property": "C01",
   "status": "proved",
   "theorems": [
    "Verif.Props.C01_ecb_roundtrip"
   ],
   "note": ""
  },
  {
   "property": "C02",
   "status": "proved",
   "theorems": [
    "Verif.Props.C02_mode_roundtrip",
    "Verif.Props.C02_cbc_roundtrip"
   ],
   "note": ""
  },
  {
   "property": "C03",
   "status": "proved",
   "theorems": [
    "Verif.Props.C03_layout",
    "Verif.Props.C03_length",
    "Verif.Props.C03_ecb_layout",
    "Verif.Props.C03_panic"
   ],
   "note": ""
  },
  {
   "property": "C04",
   "status": "proved",
   "theorems": [
    "Verif.Props.C04_decrypt_behaviour"
   ],
   "note": ""
  },
  {
   "property": "C05",
   "status": "proved",
   "theorems": [
    "Verif.Props.C05_pkcs_roundtrip",
    "Verif.Props.C05_pkcs_pad_panics"
   ],
   "note": ""
  },
  {
   "property": "C06",
   "status": "partial",
   "theorems": [
    "Verif.Props.C06_false",
    "Verif.Props.C06_false_wrong_bytes",
    "Verif.Props.C06_unpad_accepts_partial",
    "Verif.Props.C06_unpad_valid_partial"
   ],
   "note": "False of the code: PkcsPadding::unpad looks only at the last byte (and accepts 0). Negation proved (C06_false, C06_false_wrong_bytes); the exact acceptance condition and the direction that holds are the _partial theorems."
  },
  {
   "property": "C07",
   "status": "proved",
   "theorems": [
    "Verif.Props.C07_exact_limit",
    "Verif.Props.C07_exact_limit_ecb"
   ],
   "note": ""
  },
  {
   "property": "C08",
   "status": "proved",
   "theorems": [
    "Verif.Props.C08_bit_roundtrip",
    "Verif.Props.C08_bit_pad_panics",
    "Verif.Props.C08_bit_unpad_panics",
    "Verif.Props.C08_bit_unpad"
   ],
   "note": ""
  },
  {
   "property": "C09",
   "status": "proved",
   "theorems": [
    "Verif.Props.C09_split"
   ],
   "note": ""
  },
  {
   "property": "C10",
   "status": "proved",
   "theorems": [
    "Verif.Props.C10_xor",
    "Verif.Props.C10_involution",
    "Verif.Props.C10_exhausted"
   ],
   "note": ""
  },
  {
   "property": "C11",
   "status": "proved",
   "theorems": [
    "Verif.Props.C11_rc4_roundtrip"
   ],
   "note": ""
  },
  {
   "property": "C12",
   "status": "proved",
   "theorems": [
    "Verif.Props.C12_rc4_stream",
    "Verif.Props.C12_rc4_encrypt"
   ],
   "note": ""
  },
  {
   "property": "C13",
   "status": "proved",
   "theorems": [
    "Verif.Props.C13_rc4_new_panics",
    "Verif.Props.C13_rc4_key_equiv",
    "Verif.Props.C13_rc4_repeated_key",
    "Verif.Props.C13_rc4_long_keys"
   ],
   "note": ""
  },
  {
   "property": "C14",
   "status": "proved",
   "theorems": [
    "Verif.Props.C14_rc5_inverse",
    "Verif.Props.C14_rc5_ecb_roundtrip"
   ],
   "note": ""
  },
  {
   "property": "C15",
   "status": "proved",
   "theorems": [
    "Verif.Props.C15_rc5_domain"
   ],
   "note": ""
  },
  {
   "property": "C16",
   "status": "proved",
   "theorems": [
    "Verif.Props.C16_rc5_spec",
    "Verif.Props.C16_P32",
    "Verif.Props.C16_Q32"
   ],
   "note": ""
  },
  {
   "property": "C17",
   "status": "proved",
   "theorems": [
    "Verif.Props.C17_rc2_inverse",
    "Verif.Props.C17_rc2_ecb_roundtrip"
   ],
   "note": ""
  },
  {
   "property": "C18",
   "status": "proved",
   "theorems": [
    "Verif.Props.C18_rc2_domain"
   ],
   "note": ""
  },
  {
   "property": "C19",
   "status": "proved",
   "theorems": [
    "Verif.Props.C19_rc2_spec",
    "Verif.Props.C19_rc2_effective_bytes",
    "Verif.Props.C19_rc2_at_most_2_pow_bits"
   ],
   "note": ""
  },
  {
   "property": "C20",
   "status": "proved",
   "theorems": [
    "Verif.Props.C20_aes_total",
    "Verif.Props.C20_aes_inverse",
    "Verif.Props.C20_aes_ecb_roundtrip"
   ],
   "note": ""
  },
  {
   "property": "C21",
   "status": "proved",
   "theorems": [
    "Verif.Props.C21_aes128_is_fips197",
    "Verif.Props.C21_aes192_is_fips197",
    "Verif.Props.C21_aes256_is_fips197",
    "Verif.Props.C21_state_faithful"
   ],
   "note": ""
  },
  {
   "property": "C22",
   "status": "proved",
   "theorems": [
    "Verif.Props.C22_aes_sbox",
    "Verif.Props.C22_aes_sbox_bijective",
    "Verif.Props.C22_sbox_unique"
   ],
   "note": ""
  },
  {
   "property": "C23",
   "status": "proved",
   "theorems": [
    "Verif.Props.C23_aes_schedule",
    "Verif.Props.C23_schedule_unique",
    "Verif.Props.C23_aes_key_injective"
   ],
   "note": ""
  },
  {
   "property": "C24",
   "status": "proved",
   "theorems": [
    "Verif.Props.C24_mul_is_polynomial_product",
    "Verif.Props.C24_ring_laws",
    "Verif.Props.C24_mul2_mul3_div3",
    "Verif.Props.C24_inverse",
    "Verif.Props.C24_iterator"
   ],
   "note": ""
  },
  {
   "property": "C25",
   "status": "proved",
   "theorems": [
    "Verif.Props.C25_sha1",
    "Verif.Props.C25_sha1_too_long"
   ],
   "note": ""
  },
  {
   "property": "C26",
   "status": "proved",
   "theorems": [
    "Verif.Props.C26_sha256",
    "Verif.Props.C26_sha224",
    "Verif.Props.C26_too_long"
   ],
   "note": ""
  },
  {
   "property": "C27",
   "status": "proved",
   "theorems": [
    "Verif.Props.C27_sha512",
    "Verif.Props.C27_sha384"
   ],
   "note": ""
  },
  {
   "property": "C28",
   "status": "proved",
   "theorems": [
    "Verif.Props.C28_blocks_determine_message",
    "Verif.Props.C28_padding_length",
    "Verif.Props.C28_blocks_determine_message_big",
    "Verif.Props.C28_padding_length_big"
   ],
   "note": ""
  },
  {
   "property": "C29",
   "status": "proved",
   "theorems": [
    "Verif.Props.C29_words_roundtrip",
    "Verif.Props.C29_bytes_roundtrip"
   ],
   "note": ""
  },
  {
   "property": "C30",
   "status": "partial",
   "theorems": [
    "Verif.Props.C30_false_always_panics",
    "Verif.Props.C30_words_to_bytes_partial"
   ],
   "note": "False of the code: bytes_to_u64s cuts the value into chunks of 4 bytes and converts each to [u8; 8], so it always panics (C30_false_always_panics). The words-to-bytes direction (layout, injectivity) is the _partial theorem."
  },
  {
   "property": "C31",
   "status": "proved",
   "theorems": [
    "Verif.Props.C31_from_hex_iff",
    "Verif.Props.C31_from_hex_never_panics"
   ],
   "note": ""
  },
  {
   "property": "C32",
   "status": "proved",
   "theorems": [
    "Verif.Props.C32_md2",
    "Verif.Props.C32_table",
    "Verif.Props.C32_table_bijective"
   ],
   "note": ""
  },
  {
   "property": "C33",
   "status": "proved",
   "theorems": [
    "Verif.Props.C33_md4",
    "Verif.Props.C33_too_long"
   ],
   "note": ""
  },
  {
   "property": "C34",
   "status": "proved",
   "theorems": [
    "Verif.Props.C34_md5",
    "Verif.Props.C34_constants",
    "Verif.Props.C34_too_long"
   ],
   "note": ""
  },
  {
   "property": "C35",
   "status": "proved",
   "theorems": [
    "Verif.Props.C35_normalised_iff",
    "Verif.Props.C35_val_big",
    "Verif.Props.C35_from_be_bytes",
    "Verif.Props.C35_from_le_bytes",
    "Verif.Props.C35_to_be_bytes",
    "Verif.Props.C35_to_be_bytes_shortest",
    "Verif.Props.C35_roundtrip"
   ],
   "note": ""
  },
  {
   "property": "C36",
   "status": "proved",
   "theorems": [
    "Verif.Props.C36_roundtrip",
    "Verif.Props.C36_as_u128"
   ],
   "note": ""
  },
  {
   "property": "C37",
   "status": "proved",
   "theorems": [
    "Verif.Props.C37_bits_used",
    "Verif.Props.C37_is_set"
   ],
   "note": ""
  },
  {
   "property": "C38",
   "status": "proved",
   "theorems": [
    "Verif.Props.C38_update",
    "Verif.Props.C38_update_panics"
   ],
   "note": ""
  },
  {
   "property": "C39",
   "status": "proved",
   "theorems": [
    "Verif.Props.C39_add_byte",
    "Verif.Props.C39_add"
   ],
   "note": ""
  },
  {
   "property": "C40",
   "status": "proved",
   "theorems": [
    "Verif.Props.C40_cmp",
    "Verif.Props.C40_partial_cmp"
   ],
   "note": ""
  },
  {
   "property": "C41",
   "status": "proved",
   "theorems": [
    "Verif.Props.C41_sub"
   ],
   "note": ""
  },
  {
   "property": "C42",
   "status": "partial",
   "theorems": [
    "Verif.Props.C42_false_one_minus_two",
    "Verif.Props.C42_underflow_partial"
   ],
   "note": "False of the code: 1 - 2 gives 1 (C42_false_one_minus_two). What is proved: a subtrahend longer than the capacity of the working buffer panics, any other gives the difference modulo 2^(bit length of the minuend)."
  },
  {
   "property": "C43",
   "status": "partial",
   "theorems": [
    "Verif.Props.C43_shl_value_partial",
    "Verif.Props.C43_shl_partial",
    "Verif.Props.C43_shr_partial",
    "Verif.Props.C43_false_shl_zero",
    "Verif.Props.C43_false_shr_panics"
   ],
   "note": "False of the code at two points: zero shifted left by 8 or more is not normalised, and a right shift by more whole bytes than stored panics. Elsewhere exact (the _partial theorems cover all other cases)."
  },
  {
   "property": "C44",
   "status": "proved",
   "theorems": [
    "Verif.Props.C44_rem"
   ],
   "note": ""
  },
  {
   "property": "C45",
   "status": "partial",
   "theorems": [
    "Verif.Props.C45_false_small",
    "Verif.Props.C45_rem_zero_partial"
   ],
   "note": "False of the code: x %= 0 leaves x unchanged for x < 128. From 128 on it panics (C45_rem_zero_partial)."
  },
  {
   "property": "C46",
   "status": "partial",
   "theorems": [
    "Verif.Props.C46_normalised_partial",
    "Verif.Props.C46_eq_iff_partial",
    "Verif.Props.C46_false"
   ],
   "note": "False of the code: 0 <<= 8 is not normalised. Proved for all histories that do not shift zero left by 8 or more."
  },
  {
   "property": "C47",
   "status": "proved",
   "theorems": [
    "Verif.Props.C47_inverse",
    "Verif.Props.C47_unique"
   ],
   "note": ""
  },
  {
   "property": "C48",
   "status": "proved",
   "theorems": [
    "Verif.Props.C48_create_keys",
    "Verif.Props.C48_create_keys_panics",
    "Verif.Props.C48_create_keys_too_big",
    "Verif.Props.C48_create_keys_not_u128"
   ],
   "note": ""
  },
  {
   "property": "C49",
   "status": "proved",
   "theorems": [
    "Verif.Props.C49_roundtrip_any_size",
    "Verif.Props.C49_roundtrip",
    "Verif.Props.C49_equal_primes_fail"
   ],
   "note": ""
  },
  {
   "property": "C50",
   "status": "proved",
   "theorems": [
    "Verif.Props.C50_encrypt",
    "Verif.Props.C50_decrypt",
    "Verif.Props.C50_modulus_one",
    "Verif.Props.C50_multiplicative"
   ],
   "note": ""
  },
  {
   "property": "C51",
   "status": "proved",
   "theorems": [
    "Verif.Props.C51_mgf1",
    "Verif.Props.C51_mgf1_too_long",
    "Verif.Props.C51_mgf1_length",
    "Verif.Props.C51_mgf1_prefix"
   ],
   "note": ""
  },
  {
   "property": "C52",
   "status": "proved",
   "theorems": [
    "Verif.Props.C52_encode_panics",
    "Verif.Props.C52_roundtrip",
    "Verif.Props.C52_rsa_padding"
   ],
   "note": ""
  },
  {
   "property": "C53",
   "status": "proved",
   "theorems": [
    "Verif.Props.C53_encode",
    "Verif.Props.C53_rsa_padding",
    "Verif.Props.C53_encrypt_message",
    "Verif.Props.C53_encrypt_message_too_long"
   ],
   "note": ""
  },
  {
   "property": "C54",
   "status": "proved",
   "theorems": [
    "Verif.Props.C54_decode_iff",
    "Verif.Props.C54_decode_no_panic",
    "Verif.Props.C54_decode_panics_iff",
    "Verif.Props.C54_wrong_label"
   ],
   "note": ""
  },
  {
   "property": "C55",
   "status": "partial",
   "theorems": [
    "Verif.Props.C55_false"
   ],
   "note": "False of the code: the seed is the constant 42, 42, ... (C55_false); the consequence is C72."
  },
  {
   "property": "C56",
   "status": "partial",
   "theorems": [
    "Verif.Props.C56_roundtrip_partial",
    "Verif.Props.C56_ciphertext_length",
    "Verif.Props.C56_short_fails",
    "Verif.Props.C56_false"
   ],
   "note": "False of the code: encrypt_message drops leading zero bytes of the ciphertext and decrypt_message takes the ciphertext length for the modulus length. Negation with a concrete 648-bit key (C56_false) and for every short ciphertext whose encoding has a nonzero second byte (C56_short_fails); the round trip for full-length ciphertexts is the _partial theorem."
  },
  {
   "property": "C57",
   "status": "proved",
   "theorems": [
    "Verif.Props.C57_parse_der",
    "Verif.Props.C57_der_injective"
   ],
   "note": ""
  },
  {
   "property": "C58",
   "status": "proved",
   "theorems": [
    "Verif.Props.C58_ok_iff",
    "Verif.Props.C58_terminates",
    "Verif.Props.C58_trailing_bytes"
   ],
   "note": ""
  },
  {
   "property": "C59",
   "status": "partial",
   "theorems": [
    "Verif.Props.C59_false",
    "Verif.Props.C59_false_long_length",
    "Verif.Props.C59_no_panic_partial"
   ],
   "note": "False of the code: an empty bit string, a cut-off length field and a length field with more than 16 digits panic (C59_false, C59_false_long_length). The _partial theorem excludes exactly those; C75 characterises the panics."
  },
  {
   "property": "C60",
   "status": "partial",
   "theorems": [
    "Verif.Props.C60_false",
    "Verif.Props.C60_too_little_partial"
   ],
   "note": "False of the code: the length is truncated to 64 bits, so a declared length of 2^64 + 3 is taken for 3 (C60_false). Proved for declared lengths below 2^64."
  },
  {
   "property": "C61",
   "status": "proved",
   "theorems": [
    "Verif.Props.C61_roundtrip_iff",
    "Verif.Props.C61_reread",
    "Verif.Props.C61_display_injective"
   ],
   "note": ""
  },
  {
   "property": "C62",
   "status": "proved",
   "theorems": [
    "Verif.Props.C62_ok_iff",
    "Verif.Props.C62_trim"
   ],
   "note": ""
  },
  {
   "property": "C63",
   "status": "proved",
   "theorems": [
    "Verif.Props.C63_trimmed",
    "Verif.Props.C63_whitespace",
    "Verif.Props.C63_crlf",
    "Verif.Props.C63_text_before",
    "Verif.Props.C63_text_after",
    "Verif.Props.C63_rewrap"
   ],
   "note": ""
  },
  {
   "property": "C64",
   "status": "proved",
   "theorems": [
    "Verif.Props.C64_layout"
   ],
   "note": ""
  },
  {
   "property": "C65",
   "status": "proved",
   "theorems": [
    "Verif.Props.C65_private_key",
    "Verif.Props.C65_private_key_text"
   ],
   "note": ""
  },
  {
   "property": "C66",
   "status": "proved",
   "theorems": [
    "Verif.Props.C66_public_key",
    "Verif.Props.C66_public_key_text"
   ],
   "note": ""
  },
  {
   "property": "C67",
   "status": "proved",
   "theorems": [
    "Verif.Props.C67_private_iff",
    "Verif.Props.C67_public_iff",
    "Verif.Props.C67_not_both",
    "Verif.Props.C67_data_not_both"
   ],
   "note": ""
  },
  {
   "property": "C68",
   "status": "proved",
   "theorems": [
    "Verif.Props.C68_encode",
    "Verif.Props.C68_decode_iff"
   ],
   "note": ""
  },
  {
   "property": "C69",
   "status": "proved",
   "theorems": [
    "Verif.Props.C69_key_from_words"
   ],
   "note": ""
  },
  {
   "property": "C70",
   "status": "proved",
   "theorems": [
    "Verif.Props.C70_aes128_round_key_determines_key",
    "Verif.Props.C70_aes192_two_round_keys_determine_key",
    "Verif.Props.C70_aes256_two_round_keys_determine_key"
   ],
   "note": ""
  },
  {
   "property": "C71",
   "status": "proved",
   "theorems": [
    "Verif.Props.C71_decrypt_rfc8017"
   ],
   "note": ""
  },
  {
   "property": "C72",
   "status": "proved",
   "theorems": [
    "Verif.Props.C72_guess"
   ],
   "note": ""
  },
  {
   "property": "C73",
   "status": "proved",
   "theorems": [
    "Verif.Props.C73_decrypt_iff"
   ],
   "note": ""
  },
  {
   "property": "C74",
   "status": "proved",
   "theorems": [
    "Verif.Props.C74_prefix_free",
    "Verif.Props.C74_sequences",
    "Verif.Props.C74_sequence_elements"
   ],
   "note": ""
  },
  {
   "property": "C75",
   "status": "proved",
   "theorems": [
    "Verif.Props.C75_panics_iff"
   ],
   "note": ""
  },
  {
   "property": "C76",
   "status": "proved",
   "theorems": [
    "Verif.Props.C76_length_forms",
    "Verif.Props.C76_null_contents",
    "Verif.Props.C76_not_der"
   ],
   "note": ""
  },
  {
   "property": "C77",
   "status": "proved",
   "theorems": [
    "Verif.Props.C77_private_panics_iff",
    "Verif.Props.C77_public_panics_iff"
   ],
   "note": ""
  },
  {
   "property": "C78",
   "status": "proved",
   "theorems": [
    "Verif.Props.C78_loaded_keys_roundtrip",
    "Verif.Props.C78_loaded_key_decrypts"
   ],
   "note": ""
  },
  {
   "property": "C79",
   "status": "proved",
   "theorems": [
    "Verif.Props.C79_unpad",
    "Verif.Props.C79_unpad_empty"
   ],
   "note": ""
  },
  {
   "property": "C80",
   "status": "proved",
   "theorems": [
    "Verif.Props.C80_sub",
    "Verif.Props.C80_wraps"
   ],
   "note": ""
  },
  {
   "property": "C81",
   "status": "proved",
   "theorems": [
    "Verif.Props.C81_shl",
    "Verif.Props.C81_shr",
    "Verif.Props.C81_shl_shr"
   ],
   "note": ""
  },
  {
   "property": "C82",
   "status": "proved",
   "theorems": [
    "Verif.Props.C82_rem"
   ],
   "note": ""
  },
  {
   "property": "C83",
   "status": "proved",
   "theorems": [
    "Verif.Props.C83_reachable",
    "Verif.Props.C83_nonzero",
    "Verif.Props.C83_poisoned",
    "Verif.Props.C83_add_repairs"
   ],
   "note": ""
  },
  {
   "property": "C84",
   "status": "proved",
   "theorems": [
    "Verif.Props.C84_create_keys",
    "Verif.Props.C84_rsa",
    "Verif.Props.C84_mgf1",
    "Verif.Props.C84_oaep",
    "Verif.Props.C84_messages",
    "Verif.Props.C84_files",
    "Verif.Props.C84_sbox"
   ],
   "note": ""
  },
  {
   "property": "C85",
   "status": "proved",
   "theorems": [
    "Verif.Props.C85_ecb",
    "Verif.Props.C85_aes128_ecb",
    "Verif.Props.C85_aes192_ecb",
    "Verif.Props.C85_aes256_ecb",
    "Verif.Props.C85_rc5_ecb",
    "Verif.Props.C85_rc2_ecb"
   ],
   "note": ""
  },
  {
   "property": "C86",
   "status": "proved",
   "theorems": [
    "Verif.Props.C86_equal_blocks",
    "Verif.Props.C86_splice"
   ],
   "note": ""
  },
  {
   "property": "C87",
   "status": "proved",
   "theorems": [
    "Verif.Props.C87_key_reuse",
    "Verif.Props.C87_malleable",
    "Verif.Props.C87_rc4_key_reuse",
    "Verif.Props.C87_rc4_malleable"
   ],
   "note": ""
  },
  {
   "property": "C88",
   "status": "proved",
   "theorems": [
    "Verif.Props.C88_rc5_key_zero_fill"
   ],
   "note": ""
  },
  {
   "property": "C89",
   "status": "proved",
   "theorems": [
    "Verif.Props.C89_rc4_step_injective",
    "Verif.Props.C89_rc4_never_finney",
    "Verif.Props.C89_rc4_periodic",
    "Verif.Props.C89_rc4_repeats"
   ],
   "note": ""
  },
  {
   "property": "C90",
   "status": "proved",
   "theorems": [
    "Verif.Props.C90_sha256",
    "Verif.Props.C90_sha512",
    "Verif.Props.C90_sha1",
    "Verif.Props.C90_md4",
    "Verif.Props.C90_md5",
    "Verif.Props.C90_collisions_extend",
    "Verif.Props.C90_collisions_extend_sha512",
    "Verif.Props.C90_collisions_extend_sha1",
    "Verif.Props.C90_collisions_extend_md4",
    "Verif.Props.C90_collisions_extend_md5"
   ],
   "note": ""
  },
  {
   "property": "C91",
   "status": "proved",
   "theorems": [
    "Verif.Props.C91_own_ciphertext_iff",
    "Verif.Props.C91_full_length"
   ],
   "note": ""
  },
  {
   "property": "C92",
   "status": "proved",
   "theorems": [
    "Verif.Props.C92_keys_sound",
    "Verif.Props.C92_keys_normalised",
    "Verif.Props.C92_keys_only_if",
    "Verif.Props.C92_keys_symmetric",
    "Verif.Props.C92_composite"
   ],
   "note": ""
  },
  {
   "property": "C93",
   "status": "proved",
   "theorems": [
    "Verif.Props.C93_permutation",
    "Verif.Props.C93_fixed_points",
    "Verif.Props.C93_fixed_points_exist"
   ],
   "note": ""
  },
  {
   "property": "C94",
   "status": "proved",
   "theorems": [
    "Verif.Props.C94_euler_keys",
    "Verif.Props.C94_private_exponents"
   ],
   "note": ""
  },
  {
   "property": "C95",
   "status": "proved",
   "theorems": [
    "Verif.Props.C95_no_amplification",
    "Verif.Props.C95_depth",
    "Verif.Props.C95_no_depth_limit"
   ],
   "note": ""
  },
  {
   "property": "C96",
   "status": "proved",
   "theorems": [
    "Verif.Props.C96_error_iff",
    "Verif.Props.C96_total"
   ],
   "note": ""
  },
  {
   "property": "C97",
   "status": "proved",
   "theorems": [
    "Verif.Props.C97_error_iff",
    "Verif.Props.C97_marks_decide"
   ],
   "note": ""
  },
  {
   "property": "C98",
   "status": "proved",
   "theorems": [
    "Verif.Props.C98_private_error_iff",
    "Verif.Props.C98_public_error_iff"
   ],
   "note": ""
  },
  {
   "property": "C99",
   "status": "proved",
   "theorems": [
    "Verif.Props.C99_sha1",
    "Verif.Props.C99_sha256",
    "Verif.Props.C99_sha512",
    "Verif.Props.C99_md4",
    "Verif.Props.C99_md5",
    "Verif.Props.C99_md2"
   ],
   "note": ""
  },
  {
   "property": "C100",
   "status": "proved",
   "theorems": [
    "Verif.Props.C100_md4",
    "Verif.Props.C100_md5",
    "Verif.Props.C100_sha1"
   ],
   "note": ""
  },
  {
   "property": "C101",
   "status": "proved",
   "theorems": [
    "Verif.Props.C101_value",
    "Verif.Props.C101_panic",
    "Verif.Props.C101_hashes",
    "Verif.Props.C101_rc2",
    "Verif.Props.C101_pkcs_unpad",
    "Verif.Props.C101_asn1",
    "Verif.Props.C101_keys",
    "Verif.Props.C101_big",
    "Verif.Props.C101_rsa",
    "Verif.Props.C101_create_keys",
    "Verif.Props.C101_padding",
    "Verif.Props.C101_messages"
   ],
   "note": ""
  },
  {
   "property": "C102",
   "status": "proved",
   "theorems": [
    "Verif.Props.C102_sha1",
    "Verif.Props.C102_sha224",
    "Verif.Props.C102_sha256",
    "Verif.Props.C102_md4",
    "Verif.Props.C102_md5"
   ],
   "note": ""
  },
  {
   "property": "C103",
   "status": "proved",
   "theorems": [
    "Verif.Props.C103_asn1",
    "Verif.Props.C103_private_key",
    "Verif.Props.C103_public_key",
    "Verif.Props.C103_rc2",
    "Verif.Props.C103_pkcs_unpad",
    "Verif.Props.C103_same_keys"
   ],
   "note": ""
  },
  {
   "property": "C104",
   "status": "proved",
   "theorems": [
    "Verif.Props.C104_modulus",
    "Verif.Props.C104_no_roundtrip",
    "Verif.Props.C104_example_keys",
    "Verif.Props.C104_example_fails"
   ],
   "note": ""
  },
  {
   "property": "C105",
   "status": "proved",
   "theorems": [
    "Verif.Props.C105_sub",
    "Verif.Props.C105_decrypt_message",
    "Verif.Props.C105_same_messages",
    "Verif.Props.C105_bits_used",
    "Verif.Props.C105_compare_wrong"
   ],
   "note": ""
  },
  {
   "property": "C106",
   "status": "proved",
   "theorems": [
    "Verif.Props.C106_ciphers",
    "Verif.Props.C106_padding",
    "Verif.Props.C106_block_encryption",
    "Verif.Props.C106_ecb_cbc",
    "Verif.Props.C106_stream",
    "Verif.Props.C106_hashes",
    "Verif.Props.C106_big_and_keys"
   ],
   "note": ""
  },
  {
   "property": "C107",
   "status": "proved",
   "theorems": [
    "Verif.Props.C107_create_keys",
    "Verif.Props.C107_rsa",
    "Verif.Props.C107_mgf1",
    "Verif.Props.C107_oaep",
    "Verif.Props.C107_mgf1_empty_digest",
    "Verif.Props.C107_messages",
    "Verif.Props.C107_files"
   ],
   "note": ""
  },
  {
   "property": "C108",
   "status": "proved",
   "theorems": [
    "Verif.Props.C108_encrypt_message",
    "Verif.Props.C108_modulus_zero",
    "Verif.Props.C108_mgf1",
    "Verif.Props.C108_mgf1_repeats"
   ],
   "note": ""
  },
  {
   "property": "C109",
   "status": "proved",
   "theorems": [
    "Verif.Props.C109_encrypt",
    "Verif.Props.C109_decrypt",
    "Verif.Props.C109_collect",
    "Verif.Props.C109_bounded",
    "Verif.Props.C109_encrypt_order",
    "Verif.Props.C109_decrypt_order"
   ],
   "note": ""
  },
  {
   "property": "C110",
   "status": "proved",
   "theorems": [
    "Verif.Props.C110_lazy",
    "Verif.Props.C110_unused",
    "Verif.Props.C110_prefix",
    "Verif.Props.C110_end",
    "Verif.Props.C110_history",
    "Verif.Props.C110_rc4"
   ],
   "note": ""
  },
  {
   "property": "C111",
   "status": "proved",
   "theorems": [
    "Verif.Props.C111_programs"
   ],
   "note": ""
  },
  {
   "property": "C112",
   "status": "proved",
   "theorems": [
    "Verif.Props.C112_encrypt",
    "Verif.Props.C112_zero_modulus",
    "Verif.Props.C112_decrypt",
    "Verif.Props.C112_own_ciphertext",
    "Verif.Props.C112_roundtrip",
    "Verif.Props.C112_test_scheme"
   ],
   "note": ""
  },
  {
   "property": "C113",
   "status": "proved",
   "theorems": [
    "Verif.Props.C113_asn1",
    "Verif.Props.C113_private",
    "Verif.Props.C113_public",
    "Verif.Props.C113_same_text_same_reason",
    "Verif.Props.C113_debug",
    "Verif.Props.C113_pem",
    "Verif.Props.C113_as_u128"
   ],
   "note": ""
  },
  {
   "property": "C114",
   "status": "proved",
   "theorems": [
    "Verif.Props.C114_decode",
    "Verif.Props.C114_every_input",
    "Verif.Props.C114_rsa_padding"
   ],
   "note": ""
  },
  {
   "property": "C115",
   "status": "proved",
   "theorems": [
    "Verif.Props.C115_same_iff",
    "Verif.Props.C115_no_bit_lost",
    "Verif.Props.C115_one_byte_1024",
    "Verif.Props.C115_one_byte",
    "Verif.Props.C115_exactly_2_pow_bits"
   ],
   "note": ""
  },
  {
   "property": "C116",
   "status": "proved",
   "theorems": [
    "Verif.Props.C116_reduced",
    "Verif.Props.C116_reduced_number",
    "Verif.Props.C116_second_ciphertext",
    "Verif.Props.C116_accepted_iff"
   ],
   "note": ""
  },
  {
   "property": "C117",
   "status": "proved",
   "theorems": [
    "Verif.Props.C117_width_64",
    "Verif.Props.C117_same",
    "Verif.Props.C117_accepted",
    "Verif.Props.C117_converse_false"
   ],
   "note": ""
  },
  {
   "property": "C118",
   "status": "proved",
   "theorems": [
    "Verif.Props.C118_width_64",
    "Verif.Props.C118_checked_md4",
    "Verif.Props.C118_checked_md5",
    "Verif.Props.C118_checked_too_long",
    "Verif.Props.C118_wrapping_md4",
    "Verif.Props.C118_wrapping_md5",
    "Verif.Props.C118_padding_right",
    "Verif.Props.C118_wrapping_right",
    "Verif.Props.C118_padding_wrong",
    "Verif.Props.C118_checked_wrapping"
   ],
   "note": ""
  },
  {
   "property": "C119",
   "status": "proved",
   "theorems": [
    "Verif.Props.C119_offers",
    "Verif.Props.C119_prefix",
    "Verif.Props.C119_record",
    "Verif.Props.C119_buffer"
   ],
   "note": ""
  },
  {
   "property": "C120",
   "status": "proved",
   "theorems": [
    "Verif.Props.C120_every_permutation",
    "Verif.Props.C120_exactly_factorial",
    "Verif.Props.C120_shared",
    "Verif.Props.C120_second_byte",
    "Verif.Props.C120_second_byte_in_clear"
   ],
   "note": ""
  },
  {
   "property": "C121",
   "status": "proved",
   "theorems": [
    "Verif.Props.C121_verdict",
    "Verif.Props.C121_cbc_verdict",
    "Verif.Props.C121_cbc_attack",
    "Verif.Props.C121_ecb_verdict",
    "Verif.Props.C121_ciphers",
    "Verif.Props.C121_aes_cbc"
   ],
   "note": ""
  },
  {
   "property": "C122",
   "status": "proved",
   "theorems": [
    "Verif.Props.C122_blinding",
    "Verif.Props.C122_small",
    "Verif.Props.C122_common_modulus",
    "Verif.Props.C122_broadcast",
    "Verif.Props.C122_broadcast_number",
    "Verif.Props.C122_common_modulus_message"
   ],
   "note": ""
  },
  {
   "property": "C123",
   "status": "proved",
   "theorems": [
    "Verif.Props.C123_fixed_points",
    "Verif.Props.C123_at_least_nine",
    "Verif.Props.C123_useless_iff",
    "Verif.Props.C123_exponent_one"
   ],
   "note": ""
  },
  {
   "property": "C124",
   "status": "proved",
   "theorems": [
    "Verif.Props.C124_adds",
    "Verif.Props.C124_known_plaintext"
   ],
   "note": ""
  },
  {
   "property": "C125",
   "status": "proved",
   "theorems": [
    "Verif.Props.C125_same",
    "Verif.Props.C125_multiplications",
    "Verif.Props.C125_weight_leak",
    "Verif.Props.C125_remainders",
    "Verif.Props.C125_bound",
    "Verif.Props.C125_key_rounds"
   ],
   "note": ""
  },
  {
   "property": "C126",
   "status": "proved",
   "theorems": [
    "Verif.Props.C126_same",
    "Verif.Props.C126_text",
    "Verif.Props.C126_attack",
    "Verif.Props.C126_message"
   ],
   "note": ""
  },
  {
   "property": "C127",
   "status": "proved",
   "theorems": [
    "Verif.Props.C127_exponent_unique",
    "Verif.Props.C127_create_keys",
    "Verif.Props.C127_primes"
   ],
   "note": ""
  },
  {
   "property": "C128",
   "status": "partial",
   "theorems": [
    "Verif.Props.C128_public",
    "Verif.Props.C128_private",
    "Verif.Props.C128_public_partial",
    "Verif.Props.C128_private_partial",
    "Verif.Props.C128_negative",
    "Verif.Props.C128_false",
    "Verif.Props.C128_leading_zeros"
   ],
   "note": "False of the code: negative ASN.1 integers are accepted and read as positive (C128_false). Proved for integers that are not negative (C128_public_partial, C128_private_partial) and, for all, the value modulo 256 to the number of bytes."
  },
  {
   "property": "C129",
   "status": "proved",
   "theorems": [
    "Verif.Props.C129_same",
    "Verif.Props.C129_count",
    "Verif.Props.C129_first_round",
    "Verif.Props.C129_lines",
    "Verif.Props.C129_key_from_lookups",
    "Verif.Props.C129_decrypt"
   ],
   "note": ""
  },
  {
   "property": "C130",
   "status": "proved",
   "theorems": [
    "Verif.Props.C130_same",
    "Verif.Props.C130_calls",
    "Verif.Props.C130_copies",
    "Verif.Props.C130_calls_exact",
    "Verif.Props.C130_copies_exact",
    "Verif.Props.C130_quadratic",
    "Verif.Props.C130_small_file"
   ],
   "note": ""
  },
  {
   "property": "C131",
   "status": "proved",
   "theorems": [
    "Verif.Props.C131_pkcs_accepted",
    "Verif.Props.C131_pkcs_padded",
    "Verif.Props.C131_bit_accepted",
    "Verif.Props.C131_bit_padded",
    "Verif.Props.C131_ecb_accepted",
    "Verif.Props.C131_aes"
   ],
   "note": ""
  },
  {
   "property": "C132",
   "status": "proved",
   "theorems": [
    "Verif.Props.C132_iff",
    "Verif.Props.C132_two_primes",
    "Verif.Props.C132_create_keys",
    "Verif.Props.C132_equal_primes",
    "Verif.Props.C132_composite_works"
   ],
   "note": ""
  },
  {
   "property": "C133",
   "status": "proved",
   "theorems": [
    "Verif.Props.C133_jacobi",
    "Verif.Props.C133_working_keys",
    "Verif.Props.C133_create_keys"
   ],
   "note": ""
  },
  {
   "property": "C134",
   "status": "proved",
   "theorems": [
    "Verif.Props.C134_same",
    "Verif.Props.C134_setup",
    "Verif.Props.C134_key",
    "Verif.Props.C134_places_determine_object",
    "Verif.Props.C134_stream",
    "Verif.Props.C134_past",
    "Verif.Props.C134_all"
   ],
   "note": ""
  },
  {
   "property": "C135",
   "status": "proved",
   "theorems": [
    "Verif.Props.C135_same",
    "Verif.Props.C135_places",
    "Verif.Props.C135_count",
    "Verif.Props.C135_key",
    "Verif.Props.C135_object",
    "Verif.Props.C135_one_byte"
   ],
   "note": ""
  },
  {
   "property": "C136",
   "status": "proved",
   "theorems": [
    "Verif.Props.C136_same",
    "Verif.Props.C136_bytes",
    "Verif.Props.C136_message",
    "Verif.Props.C136_injective"
   ],
   "note": ""
  },
  {
   "property": "C137",
   "status": "proved",
   "theorems": [
    "Verif.Props.C137_same",
    "Verif.Props.C137_calls",
    "Verif.Props.C137_exponent",
    "Verif.Props.C137_happens",
    "Verif.Props.C137_constant"
   ],
   "note": ""
  },
  {
   "property": "C138",
   "status": "proved",
   "theorems": [
    "Verif.Props.C138_encrypt",
    "Verif.Props.C138_decrypt",
    "Verif.Props.C138_all",
    "Verif.Props.C138_spread_encrypt",
    "Verif.Props.C138_spread_decrypt",
    "Verif.Props.C138_sbox"
   ],
   "note": ""
  },
  {
   "property": "C139",
   "status": "proved",
   "theorems": [
    "Verif.Props.C139_sound",
    "Verif.Props.C139_half",
    "Verif.Props.C139_working_keys",
    "Verif.Props.C139_create_keys"
   ],
   "note": ""
  },
  {
   "property": "C140",
   "status": "proved",
   "theorems": [
    "Verif.Props.C140_sound",
    "Verif.Props.C140_small_exponent",
    "Verif.Props.C140_fourth_root",
    "Verif.Props.C140_create_keys"
   ],
   "note": ""
  },
  {
   "property": "C141",
   "status": "proved",
   "theorems": [
    "Verif.Props.C141_md2",
    "Verif.Props.C141_md4",
    "Verif.Props.C141_md5",
    "Verif.Props.C141_release",
    "Verif.Props.C141_panic",
    "Verif.Props.C141_long",
    "Verif.Props.C141_endless",
    "Verif.Props.C141_never",
    "Verif.Props.C141_memory"
   ],
   "note": ""
  },
  {
   "property": "C142",
   "status": "proved",
   "theorems": [
    "Verif.Props.C142_sbox",
    "Verif.Props.C142_inverse",
    "Verif.Props.C142_tight",
    "Verif.Props.C142_balanced",
    "Verif.Props.C142_no_fixed"
   ],
   "note": ""
  },
  {
   "property": "C143",
   "status": "proved",
   "theorems": [
    "Verif.Props.C143_texts",
    "Verif.Props.C143_read",
    "Verif.Props.C143_leak",
    "Verif.Props.C143_equal"
   ],
   "note": ""
  },
  {
   "property": "C144",
   "status": "proved",
   "theorems": [
    "Verif.Props.C144_same_start",
    "Verif.Props.C144_ecb",
    "Verif.Props.C144_cbc_iv_reuse",
    "Verif.Props.C144_ciphers"
   ],
   "note": ""
  },
  {
   "property": "C145",
   "status": "proved",
   "theorems": [
    "Verif.Props.C145_faithful",
    "Verif.Props.C145_count",
    "Verif.Props.C145_recover",
    "Verif.Props.C145_use"
   ],
   "note": ""
  },
  {
   "property": "C146",
   "status": "proved",
   "theorems": [
    "Verif.Props.C146_roundtrip",
    "Verif.Props.C146_ctr",
    "Verif.Props.C146_ofb",
    "Verif.Props.C146_cfb",
    "Verif.Props.C146_iv_reuse"
   ],
   "note": ""
  },
  {
   "property": "C147",
   "status": "proved",
   "theorems": [
    "Verif.Props.C147_call",
    "Verif.Props.C147_history"
   ],
   "note": ""
  },
  {
   "property": "C148",
   "status": "proved",
   "theorems": [
    "Verif.Props.C148_next_byte",
    "Verif.Props.C148_weak_vectors",
    "Verif.Props.C148_first_vectors"
   ],
   "note": ""
  },
  {
   "property": "C149",
   "status": "proved",
   "theorems": [
    "Verif.Props.C149_same",
    "Verif.Props.C149_decrypt",
    "Verif.Props.C149_encrypt"
   ],
   "note": ""
  },
  {
   "property": "C150",
   "status": "proved",
   "theorems": [
    "Verif.Props.C150_md4",
    "Verif.Props.C150_md5",
    "Verif.Props.C150_sha1",
    "Verif.Props.C150_sha256",
    "Verif.Props.C150_sha512",
    "Verif.Props.C150_md5_and_sha1",
    "Verif.Props.C150_pairs_exist"
   ],
   "note": ""
  },
  {
   "property": "C151",
   "status": "proved",
   "theorems": [
    "Verif.Props.C151_fermat_sound",
    "Verif.Props.C151_fermat_exact",
    "Verif.Props.C151_close_primes",
    "Verif.Props.C151_smooth_primes",
    "Verif.Props.C151_shared_prime",
    "Verif.Props.C151_create_keys",
    "Verif.Props.C151_create_keys_shared"
   ],
   "note": ""
  },
  {
   "property": "C152",
   "status": "proved",
   "theorems": [
    "Verif.Props.C152_congruence",
    "Verif.Props.C152_related",
    "Verif.Props.C152_or_factor"
   ],
   "note": ""
  },
  {
   "property": "C153",
   "status": "proved",
   "theorems": [
    "Verif.Props.C153_same",
    "Verif.Props.C153_counts",
    "Verif.Props.C153_rsa_padding",
    "Verif.Props.C153_length",
    "Verif.Props.C153_hashes",
    "Verif.Props.C153_attack"
   ],
   "note": ""
  },
  {
   "property": "C154",
   "status": "proved",
   "theorems": [
    "Verif.Props.C154_ecb",
    "Verif.Props.C154_cbc",
    "Verif.Props.C154_cfb",
    "Verif.Props.C154_ofb",
    "Verif.Props.C154_ctr",
    "Verif.Props.C154_cbc_iv",
    "Verif.Props.C154_resync"
   ],
   "note": ""
  },
  {
   "property": "C155",
   "status": "proved",
   "theorems": [
    "Verif.Props.C155_cbc",
    "Verif.Props.C155_cfb",
    "Verif.Props.C155_certain",
    "Verif.Props.C155_ctr"
   ],
   "note": ""
  },
  {
   "property": "C156",
   "status": "proved",
   "theorems": [
    "Verif.Props.C156_value",
    "Verif.Props.C156_attack",
    "Verif.Props.C156_exists",
    "Verif.Props.C156_factor"
   ],
   "note": ""
  },
  {
   "property": "C157",
   "status": "proved",
   "theorems": [
    "Verif.Props.C157_last_bit",
    "Verif.Props.C157_half"
   ],
   "note": ""
  },
  {
   "property": "C158",
   "status": "proved",
   "theorems": [
    "Verif.Props.C158_even8",
    "Verif.Props.C158_even16",
    "Verif.Props.C158_chained",
    "Verif.Props.C158_all_but_two",
    "Verif.Props.C158_code_book8",
    "Verif.Props.C158_code_book16",
    "Verif.Props.C158_no_exchange",
    "Verif.Props.C158_no_exchange8"
   ],
   "note": ""
  },
  {
   "property": "C159",
   "status": "proved",
   "theorems": [
    "Verif.Props.C159_guess",
    "Verif.Props.C159_half",
    "Verif.Props.C159_elsewhere"
   ],
   "note": ""
  },
  {
   "property": "C160",
   "status": "proved",
   "theorems": [
    "Verif.Props.C160_mask",
    "Verif.Props.C160_difference",
    "Verif.Props.C160_public",
    "Verif.Props.C160_last_bytes"
   ],
   "note": ""
  },
  {
   "property": "C161",
   "status": "proved",
   "theorems": [
    "Verif.Props.C161_block_sha2",
    "Verif.Props.C161_block_sha1",
    "Verif.Props.C161_sha256",
    "Verif.Props.C161_sha512",
    "Verif.Props.C161_sha1",
    "Verif.Props.C161_md4",
    "Verif.Props.C161_md5",
    "Verif.Props.C161_chunk_sha1",
    "Verif.Props.C161_chunk_sha256",
    "Verif.Props.C161_chunk_sha512",
    "Verif.Props.C161_chunk_md4",
    "Verif.Props.C161_chunk_md5"
   ],
   "note": ""
  },
  {
   "property": "C162",
   "status": "proved",
   "theorems": [
    "Verif.Props.C162_mgf1",
    "Verif.Props.C162_encode",
    "Verif.Props.C162_decode",
    "Verif.Props.C162_encrypt_message",
    "Verif.Props.C162_decrypt_message",
    "Verif.Props.C162_sixteen_bits"
   ],
   "note": ""
  },
  {
   "property": "C163",
   "status": "proved",
   "theorems": [
    "Verif.Props.C163_split",
    "Verif.Props.C163_table"
   ],
   "note": ""
  },
  {
   "property": "C164",
   "status": "proved",
   "theorems": [
    "Verif.Props.C164_guess",
    "Verif.Props.C164_vector"
   ],
   "note": ""
  },
  {
   "property": "C165",
   "status": "proved",
   "theorems": [
    "Verif.Props.C165_two_numbers",
    "Verif.Props.C165_accepted"
   ],
   "note": ""
  }
 ]
}