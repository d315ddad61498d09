{
 "claims": [
  {
   "property": "C01",
   "status": "proved",
   "theorems": [
    "CryptoPure.Props.C01_verify16",
    "CryptoPure.Props.C01_verify_inner"
   ],
   "note": ""
  },
  {
   "property": "C02",
   "status": "proved",
   "theorems": [
    "CryptoPure.Props.C02_sha2_fips",
    "CryptoPure.Props.C02_functions"
   ],
   "note": ""
  },
  {
   "property": "C03",
   "status": "proved",
   "theorems": [
    "CryptoPure.Props.C03_split_independent",
    "CryptoPure.Props.C03_split_fips"
   ],
   "note": ""
  },
  {
   "property": "C04",
   "status": "proved",
   "theorems": [
    "CryptoPure.Props.C04_wrong_length_panics",
    "CryptoPure.Props.C04_right_length_completes"
   ],
   "note": ""
  },
  {
   "property": "C05",
   "status": "proved",
   "theorems": [
    "CryptoPure.Props.C05_debug_panics",
    "CryptoPure.Props.C05_release_wraps",
    "CryptoPure.Props.C05_fips_length"
   ],
   "note": ""
  },
  {
   "property": "C06",
   "status": "proved",
   "theorems": [
    "CryptoPure.Props.C06_hmac_rfc2104",
    "CryptoPure.Props.C06_functions"
   ],
   "note": ""
  },
  {
   "property": "C07",
   "status": "proved",
   "theorems": [
    "CryptoPure.Props.C07_split_independent"
   ],
   "note": ""
  },
  {
   "property": "C08",
   "status": "proved",
   "theorems": [
    "CryptoPure.Props.C08_verify_iff",
    "CryptoPure.Props.C08_wrong_length_rejected",
    "CryptoPure.Props.C08_genuine_accepted"
   ],
   "note": ""
  },
  {
   "property": "C09",
   "status": "proved",
   "theorems": [
    "CryptoPure.Props.C09_trailing_zeros",
    "CryptoPure.Props.C09_long_key"
   ],
   "note": ""
  },
  {
   "property": "C10",
   "status": "proved",
   "theorems": [
    "CryptoPure.Props.C10_extract"
   ],
   "note": ""
  },
  {
   "property": "C11",
   "status": "proved",
   "theorems": [
    "CryptoPure.Props.C11_expand_release",
    "CryptoPure.Props.C11_expand_rfc5869"
   ],
   "note": ""
  },
  {
   "property": "C12",
   "status": "proved",
   "theorems": [
    "CryptoPure.Props.C12_expand_prefix"
   ],
   "note": ""
  },
  {
   "property": "C13",
   "status": "proved",
   "theorems": [
    "CryptoPure.Props.C13_expand_debug_panics"
   ],
   "note": ""
  },
  {
   "property": "C14",
   "status": "proved",
   "theorems": [
    "CryptoPure.Props.C14_sbox",
    "CryptoPure.Props.C14_inverse"
   ],
   "note": ""
  },
  {
   "property": "C15",
   "status": "proved",
   "theorems": [
    "CryptoPure.Props.C15_fips197"
   ],
   "note": ""
  },
  {
   "property": "C16",
   "status": "proved",
   "theorems": [
    "CryptoPure.Props.C16_permutation",
    "CryptoPure.Props.C16_length"
   ],
   "note": ""
  },
  {
   "property": "C17",
   "status": "proved",
   "theorems": [
    "CryptoPure.Props.C17_key_length"
   ],
   "note": ""
  },
  {
   "property": "C18",
   "status": "proved",
   "theorems": [
    "CryptoPure.Props.C18_ghash",
    "CryptoPure.Props.C18_faithful"
   ],
   "note": ""
  },
  {
   "property": "C19",
   "status": "proved",
   "theorems": [
    "CryptoPure.Props.C19_encrypt",
    "CryptoPure.Props.C19_encrypt_any_cipher"
   ],
   "note": ""
  },
  {
   "property": "C20",
   "status": "proved",
   "theorems": [
    "CryptoPure.Props.C20_roundtrip",
    "CryptoPure.Props.C20_roundtrip_any_cipher"
   ],
   "note": ""
  },
  {
   "property": "C21",
   "status": "proved",
   "theorems": [
    "CryptoPure.Props.C21_decrypt"
   ],
   "note": ""
  },
  {
   "property": "C22",
   "status": "proved",
   "theorems": [
    "CryptoPure.Props.C22_encrypt_release",
    "CryptoPure.Props.C22_encrypt_debug",
    "CryptoPure.Props.C22_decrypt_release",
    "CryptoPure.Props.C22_decrypt_debug",
    "CryptoPure.Props.C22_gap"
   ],
   "note": ""
  },
  {
   "property": "C23",
   "status": "proved",
   "theorems": [
    "CryptoPure.Props.C23_counters",
    "CryptoPure.Props.C23_across_nonces"
   ],
   "note": ""
  },
  {
   "property": "C24",
   "status": "proved",
   "theorems": [
    "CryptoPure.Props.C24_poly1305_data",
    "CryptoPure.Props.C24_ghash_blocks"
   ],
   "note": ""
  },
  {
   "property": "C25",
   "status": "proved",
   "theorems": [
    "CryptoPure.Props.C25_stream_bytes",
    "CryptoPure.Props.C25_block_length"
   ],
   "note": ""
  },
  {
   "property": "C26",
   "status": "proved",
   "theorems": [
    "CryptoPure.Props.C26_pieces",
    "CryptoPure.Props.C26_roundtrip"
   ],
   "note": ""
  },
  {
   "property": "C27",
   "status": "proved",
   "theorems": [
    "CryptoPure.Props.C27_debug",
    "CryptoPure.Props.C27_release_repeats"
   ],
   "note": ""
  },
  {
   "property": "C28",
   "status": "proved",
   "theorems": [
    "CryptoPure.Props.C28_new",
    "CryptoPure.Props.C28_encrypt"
   ],
   "note": ""
  },
  {
   "property": "C29",
   "status": "proved",
   "theorems": [
    "CryptoPure.Props.C29_rfc",
    "CryptoPure.Props.C29_cases"
   ],
   "note": ""
  },
  {
   "property": "C30",
   "status": "proved",
   "theorems": [
    "CryptoPure.Props.C30_no_overflow"
   ],
   "note": ""
  },
  {
   "property": "C31",
   "status": "proved",
   "theorems": [
    "CryptoPure.Props.C31_encrypt",
    "CryptoPure.Props.C31_modes_agree"
   ],
   "note": ""
  },
  {
   "property": "C32",
   "status": "proved",
   "theorems": [
    "CryptoPure.Props.C32_roundtrip"
   ],
   "note": ""
  },
  {
   "property": "C33",
   "status": "proved",
   "theorems": [
    "CryptoPure.Props.C33_decrypt",
    "CryptoPure.Props.C33_decrypt_any_length",
    "CryptoPure.Props.C33_no_release"
   ],
   "note": ""
  },
  {
   "property": "C34",
   "status": "proved",
   "theorems": [
    "CryptoPure.Props.C34_panics",
    "CryptoPure.Props.C34_decrypt_panics",
    "CryptoPure.Props.C34_decrypt_panics_exactly",
    "CryptoPure.Props.C34_counters_distinct",
    "CryptoPure.Props.C34_release_reuses_key_block"
   ],
   "note": ""
  },
  {
   "property": "C35",
   "status": "proved",
   "theorems": [
    "CryptoPure.Props.X25519.C35_dh_rfc7748",
    "CryptoPure.Props.X25519.C35_dh_panics"
   ],
   "note": ""
  },
  {
   "property": "C36",
   "status": "proved",
   "theorems": [
    "CryptoPure.Props.X25519.C36_dh_is_scalar_multiplication",
    "CryptoPure.Props.X25519.C36_every_u_is_a_point"
   ],
   "note": ""
  },
  {
   "property": "C37",
   "status": "proved",
   "theorems": [
    "CryptoPure.Props.X25519.C37_dh_commutes",
    "CryptoPure.Props.X25519.C37_key_agreement"
   ],
   "note": ""
  },
  {
   "property": "C38",
   "status": "proved",
   "theorems": [
    "CryptoPure.Props.X25519.C38_dh_depends_only_on",
    "CryptoPure.Props.X25519.C38_masked_bits_ignored"
   ],
   "note": ""
  },
  {
   "property": "C39",
   "status": "proved",
   "theorems": [
    "CryptoPure.Props.X25519.C39_output_canonical"
   ],
   "note": ""
  },
  {
   "property": "C40",
   "status": "proved",
   "theorems": [
    "CryptoPure.Props.X25519.C40_small_order_gives_zero"
   ],
   "note": ""
  },
  {
   "property": "C41",
   "status": "proved",
   "theorems": [
    "CryptoPure.Props.Ed25519.C41_gen_pk_rfc8032",
    "CryptoPure.Props.Ed25519.C41_gen_pk_panics",
    "CryptoPure.Props.Ed25519.C41_gen_pk_point"
   ],
   "note": ""
  },
  {
   "property": "C42",
   "status": "proved",
   "theorems": [
    "CryptoPure.Props.Ed25519.C42_sign_rfc8032",
    "CryptoPure.Props.Ed25519.C42_sign_panics",
    "CryptoPure.Props.Ed25519.C42_sign_canonical"
   ],
   "note": ""
  },
  {
   "property": "C43",
   "status": "proved",
   "theorems": [
    "CryptoPure.Props.Ed25519.C43_sign_verifies"
   ],
   "note": ""
  },
  {
   "property": "C44",
   "status": "proved",
   "theorems": [
    "CryptoPure.Props.Ed25519.C44_verify_iff",
    "CryptoPure.Props.Ed25519.C44_decode_unique",
    "CryptoPure.Props.Ed25519.C44_rfc8032_accepted"
   ],
   "note": ""
  },
  {
   "property": "C45",
   "status": "proved",
   "theorems": [
    "CryptoPure.Props.Ed25519.C45_malleable"
   ],
   "note": ""
  },
  {
   "property": "C46",
   "status": "proved",
   "theorems": [
    "CryptoPure.Props.Ed25519.C46_verify_panics",
    "CryptoPure.Props.Ed25519.C46_verify_rejects"
   ],
   "note": ""
  },
  {
   "property": "C47",
   "status": "proved",
   "theorems": [
    "CryptoPure.Props.Field.C47_mul",
    "CryptoPure.Props.Field.C47_square",
    "CryptoPure.Props.Field.C47_twice_square",
    "CryptoPure.Props.Field.C47_mul121666",
    "CryptoPure.Props.Field.C47_add",
    "CryptoPure.Props.Field.C47_sub",
    "CryptoPure.Props.Field.C47_neg",
    "CryptoPure.Props.Field.C47_invert",
    "CryptoPure.Props.Field.C47_pow22523",
    "CryptoPure.Props.Field.C47_load",
    "CryptoPure.Props.Field.C47_store",
    "CryptoPure.Props.Field.C47_cswap"
   ],
   "note": ""
  },
  {
   "property": "C48",
   "status": "proved",
   "theorems": [
    "CryptoPure.Props.Scalar.C48_reduce",
    "CryptoPure.Props.Scalar.C48_muladd",
    "CryptoPure.Props.Scalar.C48_canonical"
   ],
   "note": ""
  },
  {
   "property": "C49",
   "status": "proved",
   "theorems": [
    "CryptoPure.Props.Ed25519.C49_base_table",
    "CryptoPure.Props.Ed25519.C49_bi_table",
    "CryptoPure.Props.Ed25519.C49_constants",
    "CryptoPure.Props.Ed25519.C49_base_point"
   ],
   "note": ""
  },
  {
   "property": "C50",
   "status": "proved",
   "theorems": [
    "CryptoPure.Props.C50_ccp_lengths",
    "CryptoPure.Props.C50_ccp_keystream",
    "CryptoPure.Props.C50_gcm_lengths",
    "CryptoPure.Props.C50_gcm_keystream"
   ],
   "note": ""
  },
  {
   "property": "C51",
   "status": "proved",
   "theorems": [
    "CryptoPure.Props.C51_deviation"
   ],
   "note": ""
  },
  {
   "property": "C52",
   "status": "proved",
   "theorems": [
    "CryptoPure.Props.Ed25519.C52_noncanonical_keys_accepted"
   ],
   "note": ""
  },
  {
   "property": "C53",
   "status": "proved",
   "theorems": [
    "CryptoPure.Props.Ed25519.C53_neutral_key_accepts_everything"
   ],
   "note": ""
  },
  {
   "property": "C54",
   "status": "proved",
   "theorems": [
    "CryptoPure.Props.X25519.C54_zero_iff_small_order",
    "CryptoPure.Props.X25519.C54_zero_independent_of_key"
   ],
   "note": ""
  },
  {
   "property": "C55",
   "status": "proved",
   "theorems": [
    "CryptoPure.Props.X25519.C55_gen_pk_collisions",
    "CryptoPure.Props.X25519.C55_honest_secret_nonzero"
   ],
   "note": ""
  },
  {
   "property": "C56",
   "status": "proved",
   "theorems": [
    "CryptoPure.Props.X25519.C56_secret_determines_peer"
   ],
   "note": ""
  },
  {
   "property": "C57",
   "status": "proved",
   "theorems": [
    "CryptoPure.Props.Ed25519.C57_verify_equation",
    "CryptoPure.Props.Ed25519.C57_accepted_satisfies_rfc_equation",
    "CryptoPure.Props.Ed25519.C57_accepted_valid",
    "CryptoPure.Props.Ed25519.C57_valid_accepted",
    "CryptoPure.Props.Ed25519.C57_signatures_valid"
   ],
   "note": ""
  },
  {
   "property": "C58",
   "status": "proved",
   "theorems": [
    "CryptoPure.Props.Ed25519.C58_S_determined_mod_L",
    "CryptoPure.Props.Ed25519.C58_canonical_S_unique"
   ],
   "note": ""
  },
  {
   "property": "C59",
   "status": "proved",
   "theorems": [
    "CryptoPure.Props.Ed25519.C59_gen_pk_collisions"
   ],
   "note": ""
  },
  {
   "property": "C60",
   "status": "proved",
   "theorems": [
    "CryptoPure.Props.Ed25519.C60_gen_pk_order",
    "CryptoPure.Props.Ed25519.C60_verify_under_honest_key"
   ],
   "note": ""
  },
  {
   "property": "C61",
   "status": "proved",
   "theorems": [
    "CryptoPure.Props.C61_field",
    "CryptoPure.Props.C61_gcm_forgery_any_cipher",
    "CryptoPure.Props.C61_gcm_forgery"
   ],
   "note": ""
  },
  {
   "property": "C62",
   "status": "proved",
   "theorems": [
    "CryptoPure.Props.C62_prime",
    "CryptoPure.Props.C62_poly1305_collisions",
    "CryptoPure.Props.C62_ccp_forgery"
   ],
   "note": ""
  },
  {
   "property": "C63",
   "status": "proved",
   "theorems": [
    "CryptoPure.Props.C63_sha2_collision",
    "CryptoPure.Props.C63_sha256_sha512_collision"
   ],
   "note": ""
  },
  {
   "property": "C64",
   "status": "proved",
   "theorems": [
    "CryptoPure.Props.C64_hmac_collision",
    "CryptoPure.Props.C64_hmac_messages",
    "CryptoPure.Props.C64_hkdf_info"
   ],
   "note": ""
  },
  {
   "property": "C65",
   "status": "proved",
   "theorems": [
    "CryptoPure.Props.C65_sha2",
    "CryptoPure.Props.C65_hmac",
    "CryptoPure.Props.C65_hkdf",
    "CryptoPure.Props.C65_gcm",
    "CryptoPure.Props.C65_chacha20",
    "CryptoPure.Props.C65_chacha20_poly1305",
    "CryptoPure.Props.C65_x25519",
    "CryptoPure.Props.C65_ed25519"
   ],
   "note": ""
  },
  {
   "property": "C66",
   "status": "proved",
   "theorems": [
    "CryptoPure.Props.C66_recorded",
    "CryptoPure.Props.C66_comparison"
   ],
   "note": ""
  },
  {
   "property": "C67",
   "status": "proved",
   "theorems": [
    "CryptoPure.Props.C67_recorded",
    "CryptoPure.Props.C67_aes",
    "CryptoPure.Props.C67_encrypt",
    "CryptoPure.Props.C67_decrypt",
    "CryptoPure.Props.C67_decrypt_genuine"
   ],
   "note": ""
  },
  {
   "property": "C68",
   "status": "proved",
   "theorems": [
    "CryptoPure.Props.C68_recorded",
    "CryptoPure.Props.C68_stream",
    "CryptoPure.Props.C68_encrypt",
    "CryptoPure.Props.C68_decrypt",
    "CryptoPure.Props.C68_decrypt_genuine"
   ],
   "note": ""
  },
  {
   "property": "C69",
   "status": "proved",
   "theorems": [
    "CryptoPure.Props.C69_recorded",
    "CryptoPure.Props.C69_hash",
    "CryptoPure.Props.C69_hmac",
    "CryptoPure.Props.C69_hkdf"
   ],
   "note": ""
  },
  {
   "property": "C70",
   "status": "proved",
   "theorems": [
    "CryptoPure.Props.C70_recorded",
    "CryptoPure.Props.C70_constant_time"
   ],
   "note": ""
  },
  {
   "property": "C71",
   "status": "proved",
   "theorems": [
    "CryptoPure.Props.C71_recorded",
    "CryptoPure.Props.C71_constant_time"
   ],
   "note": ""
  },
  {
   "property": "C72",
   "status": "proved",
   "theorems": [
    "CryptoPure.Props.X25519.C72_same_secret_iff",
    "CryptoPure.Props.X25519.C72_same_secret_independent_of_key",
    "CryptoPure.Props.X25519.C72_inverse"
   ],
   "note": ""
  },
  {
   "property": "C73",
   "status": "proved",
   "theorems": [
    "CryptoPure.Props.X25519.C73_same_secret_iff"
   ],
   "note": ""
  },
  {
   "property": "C74",
   "status": "proved",
   "theorems": [
    "CryptoPure.Props.Ed25519.C74_message_bound",
    "CryptoPure.Props.Ed25519.C74_honest_key",
    "CryptoPure.Props.Ed25519.C74_signatures_differ"
   ],
   "note": ""
  },
  {
   "property": "C75",
   "status": "proved",
   "theorems": [
    "CryptoPure.Props.Ed25519.C75_nonce_repeats_iff",
    "CryptoPure.Props.Ed25519.C75_shared_nonce_equation",
    "CryptoPure.Props.Ed25519.C75_shared_nonce_reveals_key",
    "CryptoPure.Props.Ed25519.C75_scalar_suffices_to_sign"
   ],
   "note": ""
  },
  {
   "property": "C76",
   "status": "proved",
   "theorems": [
    "CryptoPure.Props.Ed25519.C76_valid_but_rejected"
   ],
   "note": ""
  },
  {
   "property": "C77",
   "status": "proved",
   "theorems": [
    "CryptoPure.Props.C77_nonce_reuse_exposes_hash_key",
    "CryptoPure.Props.C77_hash_key_suffices_to_forge"
   ],
   "note": ""
  },
  {
   "property": "C78",
   "status": "proved",
   "theorems": [
    "CryptoPure.Props.C78_any_cipher",
    "CryptoPure.Props.C78_not_key_committing"
   ],
   "note": ""
  },
  {
   "property": "C79",
   "status": "proved",
   "theorems": [
    "CryptoPure.Props.C79_gcm_hides_messages",
    "CryptoPure.Props.C79_gcm_observations"
   ],
   "note": ""
  },
  {
   "property": "C80",
   "status": "proved",
   "theorems": [
    "CryptoPure.Props.C80_gcm_forgery",
    "CryptoPure.Props.C80_gcm_forgeries"
   ],
   "note": ""
  },
  {
   "property": "C81",
   "status": "proved",
   "theorems": [
    "CryptoPure.Props.C81_with_chacha20",
    "CryptoPure.Props.C81_ccp_hides_messages",
    "CryptoPure.Props.C81_ccp_observations"
   ],
   "note": ""
  },
  {
   "property": "C82",
   "status": "proved",
   "theorems": [
    "CryptoPure.Props.C82_ccp_forgery",
    "CryptoPure.Props.C82_ccp_forgeries"
   ],
   "note": ""
  },
  {
   "property": "C83",
   "status": "proved",
   "theorems": [
    "CryptoPure.Props.C83_models_agree",
    "CryptoPure.Props.C83_encrypt_buffer",
    "CryptoPure.Props.C83_decrypt_outcome",
    "CryptoPure.Props.C83_no_unverified_plaintext",
    "CryptoPure.Props.C83_length"
   ],
   "note": ""
  },
  {
   "property": "C84",
   "status": "proved",
   "theorems": [
    "CryptoPure.Props.C84_models_agree",
    "CryptoPure.Props.C84_encrypt_outcome",
    "CryptoPure.Props.C84_decrypt_outcome"
   ],
   "note": ""
  },
  {
   "property": "C85",
   "status": "proved",
   "theorems": [
    "CryptoPure.Props.C85_models_agree",
    "CryptoPure.Props.C85_history",
    "CryptoPure.Props.C85_exhausted"
   ],
   "note": ""
  },
  {
   "property": "C86",
   "status": "proved",
   "theorems": [
    "CryptoPure.Props.C86_models_agree",
    "CryptoPure.Props.C86_extract_atomic",
    "CryptoPure.Props.C86_expand_buffer"
   ],
   "note": ""
  },
  {
   "property": "C87",
   "status": "proved",
   "theorems": [
    "CryptoPure.Props.C87_update_atomic",
    "CryptoPure.Props.C87_digest",
    "CryptoPure.Props.C87_release_takes_all",
    "CryptoPure.Props.C87_debug_takes"
   ],
   "note": ""
  },
  {
   "property": "C88",
   "status": "proved",
   "theorems": [
    "CryptoPure.Props.Convert.C88_dh_on_edwards_points",
    "CryptoPure.Props.Convert.C88_public_keys_convert",
    "CryptoPure.Props.Convert.C88_agreement_from_signing_keys"
   ],
   "note": ""
  },
  {
   "property": "C89",
   "status": "proved",
   "theorems": [
    "CryptoPure.Props.C89_gcm_adaptive_forgery",
    "CryptoPure.Props.C89_gcm_adaptive_confidentiality"
   ],
   "note": ""
  },
  {
   "property": "C90",
   "status": "proved",
   "theorems": [
    "CryptoPure.Props.C90_ccp_adaptive_forgery",
    "CryptoPure.Props.C90_ccp_adaptive_confidentiality"
   ],
   "note": ""
  },
  {
   "property": "C91",
   "status": "proved",
   "theorems": [
    "CryptoPure.Props.C91_gcm_permutation_forgery",
    "CryptoPure.Props.C91_gcm_permutation_confidentiality",
    "CryptoPure.Props.C91_aes_gcm_is_an_instance"
   ],
   "note": ""
  },
  {
   "property": "C92",
   "status": "proved",
   "theorems": [
    "CryptoPure.Props.C92_wrong_multipliers",
    "CryptoPure.Props.C92_keys",
    "CryptoPure.Props.C92_wrong_keys"
   ],
   "note": ""
  },
  {
   "property": "C93",
   "status": "proved",
   "theorems": [
    "CryptoPure.Props.C93_nth",
    "CryptoPure.Props.C93_seek",
    "CryptoPure.Props.C93_aead_from_stream"
   ],
   "note": ""
  },
  {
   "property": "C94",
   "status": "proved",
   "theorems": [
    "CryptoPure.Props.C94_length_extension",
    "CryptoPure.Props.C94_prefix_mac"
   ],
   "note": ""
  },
  {
   "property": "C95",
   "status": "proved",
   "theorems": [
    "CryptoPure.Props.C95_hmac",
    "CryptoPure.Props.C95_verify",
    "CryptoPure.Props.C95_hkdf",
    "CryptoPure.Props.C95_long_digest"
   ],
   "note": ""
  },
  {
   "property": "C96",
   "status": "proved",
   "theorems": [
    "CryptoPure.Props.C96_encrypt",
    "CryptoPure.Props.C96_decrypt",
    "CryptoPure.Props.C96_roundtrip"
   ],
   "note": ""
  },
  {
   "property": "C97",
   "status": "proved",
   "theorems": [
    "CryptoPure.Props.C97_zero_hash_key",
    "CryptoPure.Props.C97_small_order_hash_key"
   ],
   "note": ""
  },
  {
   "property": "C98",
   "status": "proved",
   "theorems": [
    "CryptoPure.Props.C98_nonce_reuse_exposes_multiplier",
    "CryptoPure.Props.C98_multiplier_suffices_to_forge",
    "CryptoPure.Props.C98_forged_tag"
   ],
   "note": ""
  },
  {
   "property": "C99",
   "status": "proved",
   "theorems": [
    "CryptoPure.Props.C99_gcm",
    "CryptoPure.Props.C99_ccp",
    "CryptoPure.Props.C99_contract",
    "CryptoPure.Props.C99_key_lengths"
   ],
   "note": ""
  },
  {
   "property": "C100",
   "status": "proved",
   "theorems": [
    "CryptoPure.Props.C100_expand_only_hmac",
    "CryptoPure.Props.C100_inputs_distinct",
    "CryptoPure.Props.C100_outputs_uniform",
    "CryptoPure.Props.C100_next_context"
   ],
   "note": ""
  },
  {
   "property": "C101",
   "status": "proved",
   "theorems": [
    "CryptoPure.Props.C101_same_key",
    "CryptoPure.Props.C101_session",
    "CryptoPure.Props.C101_accepts_only"
   ],
   "note": ""
  },
  {
   "property": "C102",
   "status": "proved",
   "theorems": [
    "CryptoPure.Props.Ed25519.C102_gen_pk_code",
    "CryptoPure.Props.Ed25519.C102_sign_code",
    "CryptoPure.Props.Ed25519.C102_verify_code",
    "CryptoPure.Props.Ed25519.C102_forgery_gives_logarithm",
    "CryptoPure.Props.Ed25519.C102_no_logarithm",
    "CryptoPure.Props.Ed25519.C102_without_hashing"
   ],
   "note": ""
  },
  {
   "property": "C103",
   "status": "proved",
   "theorems": [
    "CryptoPure.Props.Ed25519.C103_code",
    "CryptoPure.Props.Ed25519.C103_forgery_gives_logarithm"
   ],
   "note": ""
  },
  {
   "property": "C104",
   "status": "proved",
   "theorems": [
    "CryptoPure.Props.C104_code",
    "CryptoPure.Props.C104_prf",
    "CryptoPure.Props.C104_unforgeable"
   ],
   "note": ""
  },
  {
   "property": "C105",
   "status": "proved",
   "theorems": [
    "CryptoPure.Props.C105_expand_prf",
    "CryptoPure.Props.C105_code"
   ],
   "note": ""
  },
  {
   "property": "C106",
   "status": "proved",
   "theorems": [
    "CryptoPure.Props.C106_extract",
    "CryptoPure.Props.C106_hkdf",
    "CryptoPure.Props.C106_code"
   ],
   "note": ""
  },
  {
   "property": "C107",
   "status": "proved",
   "theorems": [
    "CryptoPure.Props.C107_leak"
   ],
   "note": ""
  },
  {
   "property": "C108",
   "status": "proved",
   "theorems": [
    "CryptoPure.Props.C108_exchange",
    "CryptoPure.Props.C108_key_exchange"
   ],
   "note": ""
  },
  {
   "property": "C109",
   "status": "proved",
   "theorems": [
    "CryptoPure.Props.C109_collision",
    "CryptoPure.Props.C109_preimage",
    "CryptoPure.Props.C109_second_preimage"
   ],
   "note": ""
  },
  {
   "property": "C110",
   "status": "proved",
   "theorems": [
    "CryptoPure.Props.C110_session",
    "CryptoPure.Props.C110_channel",
    "CryptoPure.Props.C110_chacha_forgery",
    "CryptoPure.Props.C110_chacha_confidentiality",
    "CryptoPure.Props.C110_gcm_forgery",
    "CryptoPure.Props.C110_gcm_confidentiality"
   ],
   "note": ""
  },
  {
   "property": "C111",
   "status": "proved",
   "theorems": [
    "CryptoPure.Props.C111_wrapped_short",
    "CryptoPure.Props.C111_hmac",
    "CryptoPure.Props.C111_one_shot",
    "CryptoPure.Props.C111_verify",
    "CryptoPure.Props.C111_extract",
    "CryptoPure.Props.C111_expand"
   ],
   "note": ""
  },
  {
   "property": "C112",
   "status": "proved",
   "theorems": [
    "CryptoPure.Props.C112_update_atomic",
    "CryptoPure.Props.C112_taken",
    "CryptoPure.Props.C112_tag"
   ],
   "note": ""
  },
  {
   "property": "C113",
   "status": "proved",
   "theorems": [
    "CryptoPure.Props.Ed25519.C113_sign_short",
    "CryptoPure.Props.Ed25519.C113_sign",
    "CryptoPure.Props.Ed25519.C113_verify_release",
    "CryptoPure.Props.Ed25519.C113_verify_debug",
    "CryptoPure.Props.Ed25519.C113_verify_panics_iff"
   ],
   "note": ""
  },
  {
   "property": "C114",
   "status": "proved",
   "theorems": [
    "CryptoPure.Props.Ed25519.C114_new_signature_one_key",
    "CryptoPure.Props.Ed25519.C114_new_signature_gives_logarithm",
    "CryptoPure.Props.Ed25519.C114_strongly_unforgeable"
   ],
   "note": ""
  },
  {
   "property": "C115",
   "status": "proved",
   "theorems": [
    "CryptoPure.Props.Work.C115_recorded",
    "CryptoPure.Props.Work.C115_hash",
    "CryptoPure.Props.Work.C115_hmac",
    "CryptoPure.Props.Work.C115_hmac_verify",
    "CryptoPure.Props.Work.C115_extract",
    "CryptoPure.Props.Work.C115_expand",
    "CryptoPure.Props.Work.C115_aes",
    "CryptoPure.Props.Work.C115_gcm_encrypt",
    "CryptoPure.Props.Work.C115_gcm_decrypt",
    "CryptoPure.Props.Work.C115_stream",
    "CryptoPure.Props.Work.C115_ccp_encrypt",
    "CryptoPure.Props.Work.C115_ccp_decrypt",
    "CryptoPure.Props.Work.C115_x25519",
    "CryptoPure.Props.Work.C115_ed25519_sign",
    "CryptoPure.Props.Work.C115_ed25519_verify"
   ],
   "note": ""
  },
  {
   "property": "C116",
   "status": "proved",
   "theorems": [
    "CryptoPure.Props.Ed25519.C116_two_owners",
    "CryptoPure.Props.Ed25519.C116_one_owner",
    "CryptoPure.Props.Ed25519.C116_honest_key"
   ],
   "note": ""
  },
  {
   "property": "C117",
   "status": "proved",
   "theorems": [
    "CryptoPure.Props.C117_code",
    "CryptoPure.Props.C117_code_game",
    "CryptoPure.Props.C117_hides",
    "CryptoPure.Props.C117_code_hides",
    "CryptoPure.Props.C117_malleable",
    "CryptoPure.Props.C117_reuse"
   ],
   "note": ""
  },
  {
   "property": "C118",
   "status": "proved",
   "theorems": [
    "CryptoPure.Props.C118_not_key_committing",
    "CryptoPure.Props.C118_example"
   ],
   "note": ""
  },
  {
   "property": "C119",
   "status": "proved",
   "theorems": [
    "CryptoPure.Props.C119_confidentiality",
    "CryptoPure.Props.C119_forgery",
    "CryptoPure.Props.C119_gcm_confidentiality",
    "CryptoPure.Props.C119_gcm_forgery",
    "CryptoPure.Props.C119_ccp_confidentiality",
    "CryptoPure.Props.C119_ccp_forgery"
   ],
   "note": ""
  },
  {
   "property": "C120",
   "status": "proved",
   "theorems": [
    "CryptoPure.Props.C120_gcm_distinguisher",
    "CryptoPure.Props.C120_gcm_runs",
    "CryptoPure.Props.C120_gcm_forgery",
    "CryptoPure.Props.C120_gcm_confidentiality",
    "CryptoPure.Props.C120_ccp_distinguisher",
    "CryptoPure.Props.C120_ccp_runs",
    "CryptoPure.Props.C120_ccp_forgery",
    "CryptoPure.Props.C120_ccp_confidentiality"
   ],
   "note": ""
  },
  {
   "property": "C121",
   "status": "proved",
   "theorems": [
    "CryptoPure.Props.C121_gcm_forgery",
    "CryptoPure.Props.C121_gcm_confidentiality",
    "CryptoPure.Props.C121_ccp_forgery",
    "CryptoPure.Props.C121_ccp_confidentiality",
    "CryptoPure.Props.C121_gcm_distinguisher",
    "CryptoPure.Props.C121_ccp_distinguisher",
    "CryptoPure.Props.C121_aes_forgery",
    "CryptoPure.Props.C121_aes_confidentiality",
    "CryptoPure.Props.C121_chacha_forgery",
    "CryptoPure.Props.C121_chacha_confidentiality"
   ],
   "note": ""
  },
  {
   "property": "C122",
   "status": "proved",
   "theorems": [
    "CryptoPure.Props.C122_runs",
    "CryptoPure.Props.C122_prf",
    "CryptoPure.Props.C122_asks",
    "CryptoPure.Props.C122_unforgeable",
    "CryptoPure.Props.C122_collision",
    "CryptoPure.Props.C122_collision_asks",
    "CryptoPure.Props.C122_inner",
    "CryptoPure.Props.C122_full_prf"
   ],
   "note": ""
  },
  {
   "property": "C123",
   "status": "proved",
   "theorems": [
    "CryptoPure.Props.C123_runs",
    "CryptoPure.Props.C123_expand_prf",
    "CryptoPure.Props.C123_full_prf"
   ],
   "note": ""
  },
  {
   "property": "C124",
   "status": "proved",
   "theorems": [
    "CryptoPure.Props.C124_derived",
    "CryptoPure.Props.C124_session_keys",
    "CryptoPure.Props.C124_aes_forgery",
    "CryptoPure.Props.C124_aes_confidentiality",
    "CryptoPure.Props.C124_chacha_forgery",
    "CryptoPure.Props.C124_chacha_confidentiality"
   ],
   "note": ""
  },
  {
   "property": "C125",
   "status": "proved",
   "theorems": [
    "CryptoPure.Switch.C125_switch",
    "CryptoPure.Switch.C125_forgery",
    "CryptoPure.Switch.C125_confidentiality",
    "CryptoPure.Switch.C125_derived_forgery"
   ],
   "note": ""
  },
  {
   "property": "C126",
   "status": "proved",
   "theorems": [
    "CryptoPure.Props.C126_gcm_distinguisher",
    "CryptoPure.Props.C126_ccp_distinguisher",
    "CryptoPure.Props.C126_gcm_forgery",
    "CryptoPure.Props.C126_gcm_confidentiality",
    "CryptoPure.Props.C126_ccp_forgery",
    "CryptoPure.Props.C126_ccp_confidentiality"
   ],
   "note": ""
  },
  {
   "property": "C127",
   "status": "proved",
   "theorems": [
    "CryptoPure.Props.C127_encrypt",
    "CryptoPure.Props.C127_decrypt",
    "CryptoPure.Props.C127_stream",
    "CryptoPure.Props.C127_stream_new",
    "CryptoPure.Props.C127_hash",
    "CryptoPure.Props.C127_hmac",
    "CryptoPure.Props.C127_hmac_verify",
    "CryptoPure.Props.C127_hkdf",
    "CryptoPure.Props.C127_x25519",
    "CryptoPure.Props.C127_ed25519",
    "CryptoPure.Props.C127_ed25519_verify"
   ],
   "note": ""
  },
  {
   "property": "C128",
   "status": "proved",
   "theorems": [
    "CryptoPure.Props.Ed25519.C128_single_within",
    "CryptoPure.Props.Ed25519.C128_many_signers",
    "CryptoPure.Props.Ed25519.C128_new_message"
   ],
   "note": ""
  },
  {
   "property": "C129",
   "status": "proved",
   "theorems": [
    "CryptoPure.Props.FreshKeys.C129_secret_unpredictable",
    "CryptoPure.Props.FreshKeys.C129_public_key_unpredictable",
    "CryptoPure.Props.FreshKeys.C129_lower_bound",
    "CryptoPure.Props.FreshKeys.C129_public_keys_differ",
    "CryptoPure.Props.FreshKeys.C129_secrets_differ",
    "CryptoPure.Props.FreshKeys.C129_ed25519_keys_differ"
   ],
   "note": ""
  },
  {
   "property": "C130",
   "status": "proved",
   "theorems": [
    "CryptoPure.Props.HmacMulti.C130_unforgeable",
    "CryptoPure.Props.HmacMulti.C130_asks",
    "CryptoPure.Props.HmacMulti.C130_bound"
   ],
   "note": ""
  },
  {
   "property": "C131",
   "status": "proved",
   "theorems": [
    "CryptoPure.Props.C131_distinguisher",
    "CryptoPure.Props.C131_runs",
    "CryptoPure.Props.C131_confidentiality"
   ],
   "note": ""
  },
  {
   "property": "C132",
   "status": "proved",
   "theorems": [
    "CryptoPure.Props.C132_aes_delivery",
    "CryptoPure.Props.C132_chacha_delivery",
    "CryptoPure.Props.C132_aes_order",
    "CryptoPure.Props.C132_chacha_order",
    "CryptoPure.Props.C132_aes_secrecy",
    "CryptoPure.Props.C132_chacha_secrecy",
    "CryptoPure.Props.C132_aes_order_perm",
    "CryptoPure.Props.C132_work",
    "CryptoPure.Props.C132_aes_session_order",
    "CryptoPure.Props.C132_chacha_session_order"
   ],
   "note": ""
  },
  {
   "property": "C133",
   "status": "proved",
   "theorems": [
    "CryptoPure.Props.C133_handshake",
    "CryptoPure.Props.C133_error",
    "CryptoPure.Props.C133_tunnel",
    "CryptoPure.Props.C133_work",
    "CryptoPure.Props.C133_aes_order",
    "CryptoPure.Props.C133_chacha_order",
    "CryptoPure.Props.C133_aes_secrecy",
    "CryptoPure.Props.C133_chacha_secrecy",
    "CryptoPure.Props.C133_switch",
    "CryptoPure.Props.C133_diffie_hellman"
   ],
   "note": ""
  },
  {
   "property": "C134",
   "status": "proved",
   "theorems": [
    "CryptoPure.Props.Signed.C134_agreement",
    "CryptoPure.Props.Signed.C134_aes_order",
    "CryptoPure.Props.Signed.C134_chacha_order",
    "CryptoPure.Props.Signed.C134_aes_secrecy",
    "CryptoPure.Props.Signed.C134_chacha_secrecy",
    "CryptoPure.Props.Signed.C134_work",
    "CryptoPure.Props.Signed.C134_switch",
    "CryptoPure.Props.Signed.C134_diffie_hellman",
    "CryptoPure.Props.Signed.C134_honest"
   ],
   "note": ""
  },
  {
   "property": "C135",
   "status": "proved",
   "theorems": [
    "CryptoPure.Props.Network.C135_agreement",
    "CryptoPure.Props.Network.C135_honest"
   ],
   "note": ""
  },
  {
   "property": "C136",
   "status": "proved",
   "theorems": [
    "CryptoPure.Props.Ed25519.C136_every_point",
    "CryptoPure.Props.Ed25519.C136_public_keys",
    "CryptoPure.Props.Ed25519.C136_forging",
    "CryptoPure.Props.Ed25519.C136_average_log",
    "CryptoPure.Props.Ed25519.C136_forging_many"
   ],
   "note": ""
  },
  {
   "property": "C137",
   "status": "proved",
   "theorems": [
    "CryptoPure.Props.DiffieHellman.C137_every_point",
    "CryptoPure.Props.DiffieHellman.C137_clamped",
    "CryptoPure.Props.DiffieHellman.C137_every_exchange",
    "CryptoPure.Props.DiffieHellman.C137_tunnel"
   ],
   "note": ""
  },
  {
   "property": "C138",
   "status": "proved",
   "theorems": [
    "CryptoPure.Props.C138_davies_meyer",
    "CryptoPure.Props.C138_code",
    "CryptoPure.Props.C138_fixed_point",
    "CryptoPure.Props.C138_collision",
    "CryptoPure.Props.C138_preimage",
    "CryptoPure.Props.C138_second_preimage"
   ],
   "note": ""
  },
  {
   "property": "C139",
   "status": "proved",
   "theorems": [
    "CryptoPure.Props.C139_code",
    "CryptoPure.Props.C139_block_function",
    "CryptoPure.Props.C139_forgery",
    "CryptoPure.Props.C139_confidentiality"
   ],
   "note": ""
  },
  {
   "property": "C140",
   "status": "proved",
   "theorems": [
    "CryptoPure.Props.C140_code",
    "CryptoPure.Props.C140_forgery",
    "CryptoPure.Props.C140_confidentiality",
    "CryptoPure.Props.C140_right_key",
    "CryptoPure.Props.C140_one_try"
   ],
   "note": ""
  },
  {
   "property": "C141",
   "status": "proved",
   "theorems": [
    "CryptoPure.Props.C141_block_functions",
    "CryptoPure.Props.C141_forgery",
    "CryptoPure.Props.C141_confidentiality",
    "CryptoPure.Props.C141_right_key",
    "CryptoPure.Props.C141_one_try"
   ],
   "note": ""
  },
  {
   "property": "C142",
   "status": "proved",
   "theorems": [
    "CryptoPure.Props.C142_exists",
    "CryptoPure.Props.C142_no_recovery",
    "CryptoPure.Props.C142_forward_secrecy",
    "CryptoPure.Props.C142_chacha_confidentiality",
    "CryptoPure.Props.C142_aes_confidentiality",
    "CryptoPure.Props.C142_chacha_forgery",
    "CryptoPure.Props.C142_aes_forgery"
   ],
   "note": ""
  },
  {
   "property": "C143",
   "status": "proved",
   "theorems": [
    "CryptoPure.Props.C143_round_trip",
    "CryptoPure.Props.C143_commits",
    "CryptoPure.Props.C143_one_message",
    "CryptoPure.Props.C143_chacha_forgery",
    "CryptoPure.Props.C143_chacha_confidentiality",
    "CryptoPure.Props.C143_aes_forgery",
    "CryptoPure.Props.C143_aes_confidentiality"
   ],
   "note": ""
  },
  {
   "property": "C144",
   "status": "proved",
   "theorems": [
    "CryptoPure.Props.C144_round_trip",
    "CryptoPure.Props.C144_forgery",
    "CryptoPure.Props.C144_confidentiality"
   ],
   "note": ""
  },
  {
   "property": "C145",
   "status": "proved",
   "theorems": [
    "CryptoPure.Props.C145_bytes",
    "CryptoPure.Props.C145_asks",
    "CryptoPure.Props.C145_runs",
    "CryptoPure.Props.C145_pseudorandom",
    "CryptoPure.Props.C145_erasing_exists",
    "CryptoPure.Props.C145_backtracking"
   ],
   "note": ""
  },
  {
   "property": "C146",
   "status": "proved",
   "theorems": [
    "CryptoPure.Props.C146_no_extension",
    "CryptoPure.Props.C146_extender_within",
    "CryptoPure.Props.C146_extends"
   ],
   "note": ""
  },
  {
   "property": "C147",
   "status": "proved",
   "theorems": [
    "CryptoPure.Props.Siv.C147_round_trip",
    "CryptoPure.Props.Siv.C147_forgery",
    "CryptoPure.Props.Siv.C147_confidentiality",
    "CryptoPure.Props.Siv.C147_repeats"
   ],
   "note": ""
  },
  {
   "property": "C148",
   "status": "proved",
   "theorems": [
    "CryptoPure.Props.TruncatedTag.C148_prf",
    "CryptoPure.Props.TruncatedTag.C148_unforgeable",
    "CryptoPure.Props.TruncatedTag.C148_guess"
   ],
   "note": ""
  },
  {
   "property": "C149",
   "status": "proved",
   "theorems": [
    "CryptoPure.Props.RandomAead.C149_ccp_random",
    "CryptoPure.Props.RandomAead.C149_gcm_random"
   ],
   "note": ""
  },
  {
   "property": "C150",
   "status": "proved",
   "theorems": [
    "CryptoPure.Props.KeyPrivacy.C150_ccp_distinguisher",
    "CryptoPure.Props.KeyPrivacy.C150_ccp_hides",
    "CryptoPure.Props.KeyPrivacy.C150_gcm_distinguisher",
    "CryptoPure.Props.KeyPrivacy.C150_gcm_hides"
   ],
   "note": ""
  },
  {
   "property": "C151",
   "status": "proved",
   "theorems": [
    "CryptoPure.Props.ShortDigest.C151_collision",
    "CryptoPure.Props.ShortDigest.C151_preimage",
    "CryptoPure.Props.ShortDigest.C151_second_preimage"
   ],
   "note": ""
  },
  {
   "property": "C152",
   "status": "proved",
   "theorems": [
    "CryptoPure.Props.Commitment.C152_hiding",
    "CryptoPure.Props.Commitment.C152_asks",
    "CryptoPure.Props.Commitment.C152_opens",
    "CryptoPure.Props.Commitment.C152_binding",
    "CryptoPure.Props.Commitment.C152_lengths"
   ],
   "note": ""
  },
  {
   "property": "C153",
   "status": "proved",
   "theorems": [
    "CryptoPure.Props.KeyedCollision.C153_hmac",
    "CryptoPure.Props.KeyedCollision.C153_commitments",
    "CryptoPure.Props.KeyedCollision.C153_extract",
    "CryptoPure.Props.KeyedCollision.C153_expand",
    "CryptoPure.Props.KeyedCollision.C153_code",
    "CryptoPure.Props.KeyedCollision.C153_one_key"
   ],
   "note": ""
  },
  {
   "property": "C154",
   "status": "proved",
   "theorems": [
    "CryptoPure.Props.Files.C154_round_trip",
    "CryptoPure.Props.Files.C154_chacha_integrity",
    "CryptoPure.Props.Files.C154_aes_integrity",
    "CryptoPure.Props.Files.C154_chacha_secrecy",
    "CryptoPure.Props.Files.C154_aes_secrecy"
   ],
   "note": ""
  },
  {
   "property": "C155",
   "status": "proved",
   "theorems": [
    "CryptoPure.Props.Merkle.C155_complete",
    "CryptoPure.Props.Merkle.C155_one_list",
    "CryptoPure.Props.Merkle.C155_one_item",
    "CryptoPure.Props.Merkle.C155_random_list",
    "CryptoPure.Props.Merkle.C155_random_item"
   ],
   "note": ""
  },
  {
   "property": "C156",
   "status": "proved",
   "theorems": [
    "CryptoPure.Props.SealedBox.C156_round_trip",
    "CryptoPure.Props.SealedBox.C156_key",
    "CryptoPure.Props.SealedBox.C156_tester",
    "CryptoPure.Props.SealedBox.C156_chacha_secrecy",
    "CryptoPure.Props.SealedBox.C156_aes_secrecy",
    "CryptoPure.Props.SealedBox.C156_context_needed"
   ],
   "note": ""
  },
  {
   "property": "C157",
   "status": "proved",
   "theorems": [
    "CryptoPure.Props.MerkleLog.C157_complete",
    "CryptoPure.Props.MerkleLog.C157_only_grows",
    "CryptoPure.Props.MerkleLog.C157_random"
   ],
   "note": ""
  },
  {
   "property": "C158",
   "status": "proved",
   "theorems": [
    "CryptoPure.Props.ManyBoxes.C158_chacha_secrecy",
    "CryptoPure.Props.ManyBoxes.C158_aes_secrecy",
    "CryptoPure.Props.ManyBoxes.C158_tester"
   ],
   "note": ""
  },
  {
   "property": "C159",
   "status": "proved",
   "theorems": [
    "CryptoPure.Props.Layers.C159_round_trip",
    "CryptoPure.Props.Layers.C159_accept",
    "CryptoPure.Props.Layers.C159_aes_in_chacha_forgery",
    "CryptoPure.Props.Layers.C159_aes_in_chacha_confidentiality",
    "CryptoPure.Props.Layers.C159_chacha_in_aes_forgery",
    "CryptoPure.Props.Layers.C159_chacha_in_aes_confidentiality"
   ],
   "note": ""
  },
  {
   "property": "C160",
   "status": "proved",
   "theorems": [
    "CryptoPure.Props.Hybrid.C160_code",
    "CryptoPure.Props.Hybrid.C160_agree",
    "CryptoPure.Props.Hybrid.C160_shared_key_protects",
    "CryptoPure.Props.Hybrid.C160_shared_key_protects_active",
    "CryptoPure.Props.Hybrid.C160_exchange_protects"
   ],
   "note": ""
  },
  {
   "property": "C161",
   "status": "proved",
   "theorems": [
    "CryptoPure.Props.TwoHashes.C161_digest",
    "CryptoPure.Props.TwoHashes.C161_collision",
    "CryptoPure.Props.TwoHashes.C161_tag",
    "CryptoPure.Props.TwoHashes.C161_tag_collision",
    "CryptoPure.Props.TwoHashes.C161_both",
    "CryptoPure.Props.TwoHashes.C161_first",
    "CryptoPure.Props.TwoHashes.C161_second"
   ],
   "note": ""
  },
  {
   "property": "C162",
   "status": "proved",
   "theorems": [
    "CryptoPure.Props.Envelope.C162_hop",
    "CryptoPure.Props.Envelope.C162_forgery",
    "CryptoPure.Props.Envelope.C162_confidentiality",
    "CryptoPure.Props.Envelope.C162_unwrap",
    "CryptoPure.Props.Envelope.C162_aes_forgery",
    "CryptoPure.Props.Envelope.C162_aes_confidentiality",
    "CryptoPure.Props.Envelope.C162_chacha_forgery",
    "CryptoPure.Props.Envelope.C162_chacha_confidentiality",
    "CryptoPure.Props.Envelope.C162_aes_unwrap",
    "CryptoPure.Props.Envelope.C162_chacha_unwrap",
    "CryptoPure.Props.Envelope.C162_round_trip"
   ],
   "note": ""
  },
  {
   "property": "C163",
   "status": "proved",
   "theorems": [
    "CryptoPure.Props.Login.C163_client",
    "CryptoPure.Props.Login.C163_login",
    "CryptoPure.Props.Login.C163_login_bound"
   ],
   "note": ""
  }
 ]
}