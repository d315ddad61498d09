{"id": "C01", "title": "Tag comparison is exact equality", "statement": "util::verify_16(x, y) returns true exactly when y has 16 bytes and every byte equals the corresponding byte of x; it never panics, whatever the length of y. (The internal comparison used for HMAC tags of other lengths is 0 exactly on equal slices.)", "quantifier": "every 16-byte x and every byte slice y of every length", "why_tests_cant": "2^128 values of x times unboundedly many slices; an accumulator that loses one bit pattern (for instance using & or + instead of |) passes any sample that does not hit it", "anchors": ["src/util.rs: verify_16, verify_inner"]}
{"id": "C02", "title": "SHA-2 digests follow FIPS 180-4", "statement": "sha224, sha256, sha384 and sha512 return the FIPS 180-4 digest of the message: padding, message schedule, compression and truncation as in the standard, for every message the 64-bit length counter supports.", "quantifier": "every byte message shorter than 2^61 bytes, all four functions", "why_tests_cant": "padding has block-boundary cases at every length modulo the block size and at arbitrarily many blocks; test vectors sample a handful of lengths", "anchors": ["src/sha2.rs: sha512, sha384, sha256, sha224, impl_processor! (update, pad, process, write_digest)"]}
{"id": "C03", "title": "Hashing is independent of how the input is split", "statement": "Feeding a message to a SHA-2 object in any sequence of update calls (including empty ones) and then calling write_digest gives the same digest as hashing the concatenation in one call.", "quantifier": "every finite sequence of update calls with arbitrary slices, total length below 2^61 bytes, all four functions", "why_tests_cant": "the buffer has a different case for every (offset, slice length) pair and the history is unbounded", "anchors": ["src/sha2.rs: HashFunction::update, HashFunction::write_digest"]}
{"id": "C04", "title": "write_digest panics exactly on a wrong output length", "statement": "write_digest on a SHA-2 object panics if output.len() differs from the digest size, and otherwise (message below the length limit) completes and overwrites the whole output.", "quantifier": "every reachable hash object and every output length", "why_tests_cant": "needs every reachable internal state (buffer offset) and every output length", "anchors": ["src/sha2.rs: impl_function! write_digest"]}
{"id": "C05", "title": "Behaviour beyond the SHA-2 length counter", "statement": "A message of 2^61 bytes or more overflows the 64-bit bit counter: with overflow checks finishing the hash panics; without them the digest is the one whose encoded length is the bit length modulo 2^64 (so it is not the FIPS 180-4 digest, which allows longer messages for SHA-384/512).", "quantifier": "every message length from 2^61 up, both build modes", "why_tests_cant": "messages of 2^61 bytes cannot be produced in a test", "anchors": ["src/sha2.rs: Processor512.len, impl_processor! (update, pad)"]}
{"id": "C06", "title": "HMAC follows RFC 2104", "statement": "hmac_sha224/256/384/512(key, message) = H((K' xor opad) || H((K' xor ipad) || message)) where K' is the key zero-padded to the block size, or the zero-padded digest of the key when the key is longer than a block.", "quantifier": "every key of every length and every message (below the hash length limit), all four hashes", "why_tests_cant": "key lengths below, at and above the block size and all contents; unit tests fix a few keys", "anchors": ["src/hmac.rs: Hmac::new, Hmac::write_tag, keyed_hash_function, hmac_sha512"]}
{"id": "C07", "title": "HMAC is independent of how the message is split", "statement": "Any sequence of update calls on an Hmac followed by tag() gives the tag of the concatenated message.", "quantifier": "every key, every finite sequence of update slices, every supported hash", "why_tests_cant": "unbounded histories of updates", "anchors": ["src/hmac.rs: Hmac::update, Hmac::tag"]}
{"id": "C08", "title": "hmac::verify accepts exactly the genuine tag", "statement": "hmac::verify(key, message, tag) returns true exactly when tag equals the full HMAC tag: every truncation, extension or altered tag is rejected, the genuine tag is accepted, and it does not panic.", "quantifier": "every key, message and candidate tag of every length", "why_tests_cant": "the space of forged tags cannot be enumerated", "anchors": ["src/hmac.rs: verify", "src/util.rs: verify_inner"]}
{"id": "C09", "title": "HMAC key equivalence classes", "statement": "Two HMAC keys no longer than a block that differ only by trailing zero bytes give identical tags on every message, and a key longer than a block gives the same tags as its digest used as key.", "quantifier": "all keys and messages", "why_tests_cant": "a universally quantified equivalence over all keys and messages", "anchors": ["src/hmac.rs: Hmac::new, keyed_hash_function"]}
{"id": "C10", "title": "HKDF-Extract", "statement": "hkdf::extract writes HMAC(salt, ikm) to prk and panics exactly when prk.len() is not the digest size.", "quantifier": "every salt, ikm and prk buffer", "why_tests_cant": "unbounded inputs; panic condition over every buffer length", "anchors": ["src/hkdf.rs: extract"]}
{"id": "C11", "title": "HKDF-Expand follows RFC 5869", "statement": "hkdf::expand fills okm with the first okm.len() bytes of T(1)||T(2)||..., T(i) = HMAC(prk, T(i-1)||info||i), for every okm length for which it does not panic; without overflow checks it panics exactly when prk is shorter than a digest or okm longer than 255 digests, as documented.", "quantifier": "every prk, info, okm length, supported hash and build mode", "why_tests_cant": "255 block-boundary cases times arbitrary prk/info; tests use three vectors", "anchors": ["src/hkdf.rs: expand"]}
{"id": "C12", "title": "HKDF-Expand outputs are prefixes of one another", "statement": "For the same prk and info, the okm for a shorter length is a prefix of the okm for a longer one.", "quantifier": "every prk, info and pair of lengths", "why_tests_cant": "relates two runs over all lengths", "anchors": ["src/hkdf.rs: expand"]}
{"id": "C13", "title": "HKDF-Expand block counter overflow", "statement": "In builds with overflow checks expand panics exactly when okm.len() >= 254 digests (or prk is too short), although the documentation allows up to 255 digests: the documented guarantee is violated in that mode.", "quantifier": "every okm length, both build modes", "why_tests_cant": "needs the exact boundary over all lengths in both build modes; the repository's tests only use short outputs", "anchors": ["src/hkdf.rs: expand ((1..).zip over u8)"]}
{"id": "C14", "title": "The arithmetic S-box is the AES S-box", "statement": "The composite-field S-box used by AES equals multiplicative inversion in GF(2^8) modulo x^8+x^4+x^3+x+1 followed by the FIPS 197 affine map, on every byte.", "quantifier": "all 256 byte values against the algebraic definition", "why_tests_cant": "a test compares against another implementation's table; the property is agreement with the field-theoretic definition", "anchors": ["src/aes.rs: s_box, g256_newbasis, g256_inv"]}
{"id": "C15", "title": "AES encryption follows FIPS 197", "statement": "Aes128/192/256::new(key).permute(block) is the FIPS 197 cipher (key expansion, rounds, final round) on that key and block.", "quantifier": "every key of the right length and every 16-byte block", "why_tests_cant": "2^128 blocks and up to 2^256 keys", "anchors": ["src/aes.rs: key_expansion, permute, shift_rows, mix_columns"]}
{"id": "C16", "title": "permute is a permutation", "statement": "For every key, permute is a bijection on 16-byte blocks.", "quantifier": "every key, all pairs of blocks", "why_tests_cant": "injectivity quantifies over pairs from a 2^128 domain", "anchors": ["src/aes.rs: BlockCipher::permute"]}
{"id": "C17", "title": "AES key length check", "statement": "Aes128/192/256::new panics exactly when the key is not 16/24/32 bytes long.", "quantifier": "every key length", "why_tests_cant": "all lengths", "anchors": ["src/aes.rs: key_expansion"]}
{"id": "C18", "title": "GHASH is polynomial evaluation in GF(2^128)", "statement": "The hash inside GCM is the evaluation at H of the polynomial whose coefficients are the zero-padded data blocks, the zero-padded ciphertext blocks and the two 64-bit bit lengths, in GF(2)[x]/(x^128+x^7+x^2+x+1).", "quantifier": "every hash key, associated data and ciphertext (lengths below 2^61 bytes)", "why_tests_cant": "shift-and-reduce multiplication over 2^256 operand pairs and unboundedly many blocks", "anchors": ["src/ghash.rs: ghash, PolyFunction::process"]}
{"id": "C19", "title": "GCM encryption follows SP 800-38D (96-bit nonce)", "statement": "Gcm::encrypt outputs the GCTR encryption starting from inc32(J0) and the tag GHASH(data, ciphertext) xor E(J0), J0 = nonce||0^31||1.", "quantifier": "every block cipher, key, nonce, data and message within the documented bounds", "why_tests_cant": "unbounded message and data lengths", "anchors": ["src/gcm.rs: Gcm::encrypt, Processor::process, Processor::tag"]}
{"id": "C20", "title": "GCM round trip", "statement": "If encrypt succeeds, decrypt with the same key, nonce, data and the returned tag returns true and restores the message.", "quantifier": "every block cipher (any deterministic block function), key, nonce, data, message", "why_tests_cant": "all message lengths and contents, generic cipher", "anchors": ["src/gcm.rs: encrypt, decrypt"]}
{"id": "C21", "title": "GCM decrypt accepts exactly the right tag and releases nothing otherwise", "statement": "decrypt returns true exactly when tag equals the 16-byte tag encrypt would compute for that ciphertext, nonce and data; when it returns false the output buffer is left exactly as it was.", "quantifier": "every ciphertext, nonce, data, candidate tag (any length) and output buffer", "why_tests_cant": "the space of tags and buffers; the tests say TODO for this", "anchors": ["src/gcm.rs: decrypt", "src/util.rs: verify_16"]}
{"id": "C22", "title": "GCM panic conditions", "statement": "Without overflow checks encrypt/decrypt panic exactly under the documented conditions (buffer length mismatch, nonce not 12 bytes, message not below 2^36-32 bytes, data not below 2^61 bytes). With overflow checks they additionally panic for the last few permitted lengths (more than 2^32-4 blocks).", "quantifier": "every combination of lengths, both build modes", "why_tests_cant": "boundary lengths are about 64 GiB", "anchors": ["src/gcm.rs: check_bounds, process"]}
{"id": "C23", "title": "GCM never repeats a counter block", "statement": "For any permitted message the blocks fed to the cipher for the keystream are pairwise distinct and differ from the block that masks the tag; hence with AES the keystream blocks are pairwise distinct. Messages encrypted under one key with different nonces use disjoint sets of keystream and mask blocks.", "quantifier": "every nonce (pair of nonces) and every message length permitted by the bounds check", "why_tests_cant": "counter wrap-around only shows at 2^32 blocks", "anchors": ["src/gcm.rs: block, process, tag, check_bounds"]}
{"id": "C24", "title": "Authenticated encodings are unambiguous", "statement": "The block sequence authenticated by GHASH (and by Poly1305 in the AEAD) determines the pair (data, ciphertext): different pairs give different block sequences, so bytes cannot be moved between data and ciphertext or zero-padding exploited.", "quantifier": "all pairs of (data, ciphertext) with lengths below the 64-bit limits", "why_tests_cant": "injectivity over all pairs of inputs", "anchors": ["src/ghash.rs: GHash::process, write_tag", "src/poly1305.rs: Poly1305::process, write_tag"]}
{"id": "C25", "title": "ChaCha20 stream bytes follow RFC 8439", "statement": "The i-th byte yielded by a Stream is byte i mod 64 of the RFC 8439 block for counter i div 64.", "quantifier": "every key, nonce and position below 2^38", "why_tests_cant": "2^38 positions for 2^352 key/nonce pairs", "anchors": ["src/chacha20.rs: Stream::next, ChaCha20::block"]}
{"id": "C26", "title": "Stream encryption composes and inverts", "statement": "Encrypting a message in any sequence of pieces gives the same ciphertext as in one call, and decrypting with a fresh stream (in any other split) restores the message.", "quantifier": "every key, nonce and pair of partitions of every message up to 2^38 bytes", "why_tests_cant": "histories of calls with arbitrary alignments", "anchors": ["src/chacha20.rs: Stream::encrypt, decrypt, process"]}
{"id": "C27", "title": "ChaCha20 stream counter overflow", "statement": "Requesting byte number 2^38 panics with overflow checks and, without them, yields the first byte of the stream again (keystream reuse with period 2^38).", "quantifier": "every key and nonce, both build modes, all positions", "why_tests_cant": "256 GiB of iteration", "anchors": ["src/chacha20.rs: Stream::next"]}
{"id": "C28", "title": "ChaCha20 panic conditions", "statement": "Stream::new panics exactly when key.len() != 32 or nonce.len() != 12; encrypt/decrypt panic exactly when input.len() != output.len() (within the first 2^38 bytes).", "quantifier": "all lengths and reachable stream states", "why_tests_cant": "all lengths and histories", "anchors": ["src/chacha20.rs: Stream::new, process"]}
{"id": "C29", "title": "Poly1305 tag equals the RFC 8439 polynomial except for accumulators below 2^31", "statement": "The AEAD's one-time authenticator equals ((sum of padded 17-byte blocks times powers of the clamped r) mod 2^130-5 + s) mod 2^128, little-endian, for the padded data/ciphertext/lengths message, whenever that accumulator is at least 2^31. For every input it is either that tag or, with an accumulator below 2^31, the tag of one explicitly given wrong reduction (see C51).", "quantifier": "every 32-byte one-time key, data and ciphertext of every length", "why_tests_cant": "carry and final-subtraction cases occur with probability about 2^-100, far beyond random testing", "anchors": ["src/poly1305.rs: PolyFunction (process, mulmod, squeeze, freeze, write_value)"]}
{"id": "C30", "title": "Poly1305 limb arithmetic never overflows", "statement": "No u32 addition or multiplication in the authenticator overflows, so builds with and without overflow checks agree and neither panics.", "quantifier": "every key and every sequence of blocks (unbounded)", "why_tests_cant": "an invariant over unboundedly many blocks", "anchors": ["src/poly1305.rs: mulmod, squeeze, add, freeze"]}
{"id": "C31", "title": "ChaCha20-Poly1305 follows RFC 8439", "statement": "encrypt yields the RFC 8439 AEAD ciphertext (counter starting at 1) and, whenever the authenticator's accumulator is at least 2^31, the RFC 8439 tag (one-time key from block 0). Debug and release builds agree for messages of fewer than 2^32-2 blocks.", "quantifier": "every key, nonce, data and message within the RFC length limit", "why_tests_cant": "unbounded lengths", "anchors": ["src/poly1305.rs: encrypt, process, tag, poly_key_gen"]}
{"id": "C32", "title": "ChaCha20-Poly1305 round trip", "statement": "decrypt of an encrypt result returns true and restores the message.", "quantifier": "every key, nonce, data, message", "why_tests_cant": "all lengths and contents", "anchors": ["src/poly1305.rs: encrypt, decrypt"]}
{"id": "C33", "title": "ChaCha20-Poly1305 decrypt accepts exactly the right tag and releases nothing otherwise", "statement": "decrypt returns true exactly when the tag is the one encrypt computes for that ciphertext, nonce and data; when it returns false the output buffer is unchanged.", "quantifier": "every ciphertext, nonce, data, tag and buffer", "why_tests_cant": "tag space; tests say TODO", "anchors": ["src/poly1305.rs: decrypt"]}
{"id": "C34", "title": "ChaCha20-Poly1305 has no message length check", "statement": "Up to 2^32-1 blocks the keystream counters are distinct and never 0. Beyond that, without overflow checks, the counter wraps to 0 and message bytes are encrypted with the block whose first half is the one-time authenticator key (the RFC forbids such messages; the code accepts them). With overflow checks, messages of 2^32-2 blocks or more panic.", "quantifier": "every message length, both build modes", "why_tests_cant": "messages of 256 GiB", "anchors": ["src/poly1305.rs: process"]}
{"id": "C35", "title": "X25519 follows RFC 7748", "statement": "curve25519::dh(public_key, secret_key) (and gen_pk with base 9) equals the RFC 7748 X25519 function computed in exact arithmetic modulo 2^255-19; it never panics on 32-byte arguments in any build mode and panics on any other length.", "quantifier": "all 2^512 pairs of 32-byte arguments; all other lengths", "why_tests_cant": "limb carries and overflow corner cases are unreachable by sampling", "anchors": ["src/curve25519.rs: scalarmult, gen_pk, dh, Fe"]}
{"id": "C36", "title": "X25519 computes scalar multiples on the curve", "statement": "The result of dh is the u-coordinate of the clamped scalar times any point with the given u-coordinate on v^2 = u^3+486662u^2+u (over an algebraic closure), 0 standing for the point at infinity.", "quantifier": "every scalar and every u (on the curve or its twist)", "why_tests_cant": "group-theoretic statement for all points", "anchors": ["src/curve25519.rs: scalarmult, dh"]}
{"id": "C37", "title": "Diffie-Hellman agreement", "statement": "dh(gen_pk(a), b) = dh(gen_pk(b), a); more generally dh(dh(u, a), b) = dh(dh(u, b), a).", "quantifier": "all secret keys a, b and all u", "why_tests_cant": "all pairs of keys", "anchors": ["src/curve25519.rs: gen_pk, dh"]}
{"id": "C38", "title": "X25519 ignores exactly the masked bits", "statement": "The output depends on the secret key only through its clamped value and on the public key only through its value modulo 2^255 reduced mod 2^255-19 (so non-canonical encodings and the top bit are accepted and ignored).", "quantifier": "all pairs of arguments", "why_tests_cant": "relation between all pairs of inputs", "anchors": ["src/curve25519.rs: scalarmult, assign_from_bytes"]}
{"id": "C39", "title": "X25519 output is canonical", "statement": "The 32 output bytes always encode a number below 2^255-19.", "quantifier": "all inputs", "why_tests_cant": "freeze corner cases have negligible probability", "anchors": ["src/curve25519.rs: write_bytes"]}
{"id": "C40", "title": "Small-order public keys give the all-zero secret", "statement": "dh returns 32 zero bytes, without any error, for every secret key when the public key has small order (u = 0, 1, -1 and the order-8 points); the function performs no contributory check.", "quantifier": "all secret keys", "why_tests_cant": "all 2^256 secrets", "anchors": ["src/curve25519.rs: dh"]}
{"id": "C41", "title": "Ed25519 public keys follow RFC 8032", "statement": "ed25519::gen_pk(sk) is the encoding of [a]B, a the clamped first half of SHA-512(sk); panics exactly when sk is not 32 bytes.", "quantifier": "all secret keys", "why_tests_cant": "2^256 keys; precomputed tables exercised at every digit", "anchors": ["src/ed25519.rs: gen_pk, from_scalarmult_base, select", "src/const_curve25519.rs: BASE"]}
{"id": "C42", "title": "Ed25519 signatures follow RFC 8032", "statement": "sign(message, sk) = encode([r]B) || encode((r + H(R||A||M) a) mod L), deterministically, with S < L, for every message shorter than 2^61 - 64 bytes (longer ones: C113); a key of another length than 32 panics.", "quantifier": "all messages and keys", "why_tests_cant": "all inputs; scalar reduction corner cases", "anchors": ["src/ed25519.rs: sign, sc_reduce, sc_muladd"]}
{"id": "C43", "title": "Signatures verify", "statement": "verify(m, sign(m, sk), gen_pk(sk)) is true.", "quantifier": "all messages and keys", "why_tests_cant": "all inputs", "anchors": ["src/ed25519.rs: sign, verify, gen_pk"]}
{"id": "C44", "title": "verify decides the cofactorless equation", "statement": "verify(m, sig, pk) is true exactly when sig has 64 bytes, S < 2^253, pk decodes to a curve point A (y taken modulo p, sign bit ignored for x = 0), and the first 32 bytes of sig are the encoding of [S]B - [H(R||pk||m) mod L]A. The decoded A is unique, and every signature valid by the RFC 8032 equation [S]B = R + [k]A with S < L and canonical encodings is accepted for a key in the subgroup of order L (as every key of gen_pk is).", "quantifier": "all messages shorter than 2^61 - 64 bytes (longer ones: C113), byte strings sig and 32-byte pk", "why_tests_cant": "all forged inputs", "anchors": ["src/ed25519.rs: verify, from_double_scalarmult_vartime, slide, from_bytes_negate_vartime"]}
{"id": "C45", "title": "Ed25519 signatures are malleable", "statement": "verify does not reject S >= L: replacing S by S+L in a valid signature (when S+L < 2^253) gives another valid signature for the same message and key, so signatures are not unique.", "quantifier": "every valid signature", "why_tests_cant": "algebraic relation over all signatures", "anchors": ["src/ed25519.rs: verify (check signature[63] & 224)"]}
{"id": "C46", "title": "verify rejects malformed input without panicking", "statement": "verify panics exactly when public_key.len() != 32 (with overflow checks: for messages shorter than 2^61 - 64 bytes, longer ones see C113); a signature of length other than 64, or with one of the three top bits of S set, or a public key that is not the encoding of a curve point, gives false.", "quantifier": "all byte strings", "why_tests_cant": "all lengths and contents", "anchors": ["src/ed25519.rs: verify, from_bytes_negate_vartime"]}
{"id": "C47", "title": "Field arithmetic modulo 2^255-19 is exact and overflow-free", "statement": "Every field operation used by X25519 and Ed25519 (add, sub, mul, square, 121666-mul, invert, pow22523, load, store) returns a representative of the mathematical result and no i32/i64 operation in it overflows on the operands that can occur.", "quantifier": "all limb vectors within the operation's bounds, which hold in every execution", "why_tests_cant": "limb products: 2^520 operand pairs, overflow at extremes only", "anchors": ["src/curve25519.rs: fe_mul!, fe_sq!, Fe"]}
{"id": "C48", "title": "Scalar arithmetic modulo L is exact and canonical", "statement": "The scalar reduction and multiply-add used by sign and verify return the canonical (below L) residue of the exact integer result, with no i64 overflow.", "quantifier": "all 64-byte inputs / all 32-byte operand triples", "why_tests_cant": "2^512 inputs", "anchors": ["src/ed25519.rs: sc_reduce, sc_muladd"]}
{"id": "C49", "title": "Precomputed tables hold the right points", "statement": "BASE[i][j] is (j+1)*256^i*B and BI[j] is (2j+1)*B in the (y+x, y-x, 2dxy) form; D, D2, SQRTM1 are the curve constants.", "quantifier": "the whole finite table, against the group law", "why_tests_cant": "tests exercise few entries and no group-theoretic statement", "anchors": ["src/const_curve25519.rs: BASE, BI, D, D2, SQRTM1"]}
{"id": "C50", "title": "AEAD encryption preserves length and xors a stream given by key and nonce", "statement": "encrypt of either AEAD returns a 16-byte tag and writes exactly input.len() bytes; the ciphertext xor message is independent of the message (depends only on key and nonce).", "quantifier": "all inputs", "why_tests_cant": "relation over all pairs of messages", "anchors": ["src/gcm.rs: encrypt", "src/poly1305.rs: encrypt"]}
{"id": "C51", "title": "Poly1305 final reduction deviates from RFC 8439 (defect)", "statement": "There is a key, nonce and data for which encrypt returns a tag different from RFC 8439's: the comparison with 2^130-5 leaves the carry limb unmasked, so an accumulator held just above 2^130-5 is not reduced. (A counterexample to the unrestricted C29/C31.)", "quantifier": "an explicit witness; C29 delimits the affected inputs for all inputs", "why_tests_cant": "the affected inputs have probability about 2^-100 under random testing", "anchors": ["src/poly1305.rs: PolyFunction::freeze, add"]}
{"id": "C52", "title": "Ed25519 public keys are not checked for canonical form", "statement": "verify accepts public keys that are the encoding of no point (y >= p, or x = 0 with the sign bit set), although RFC 8032 decoding must fail on them; signatures exist that it accepts under such keys, for every message.", "quantifier": "all messages, both build modes", "why_tests_cant": "the claim is about byte strings outside the image of the encoder and about every message", "anchors": ["src/ed25519.rs: from_bytes_negate_vartime, verify"]}
{"id": "C53", "title": "The neutral public key validates one signature for every message", "statement": "verify does not reject public keys of small order: with a key decoding to the neutral element the fixed signature (encoding of the neutral element, S = 0) is accepted for every message.", "quantifier": "all messages, both build modes", "why_tests_cant": "quantifies over all messages", "anchors": ["src/ed25519.rs: verify"]}
{"id": "C54", "title": "X25519 gives the all-zero secret exactly for the small-order keys", "statement": "dh returns 32 zero bytes if and only if the public key (top bit ignored, reduced modulo 2^255-19) is one of 0, 1, -1 and the two u-coordinates of order 8; in particular whether it does so does not depend on the secret key. This covers keys on the twist.", "quantifier": "all 32-byte public keys and secret keys, both build modes", "why_tests_cant": "2^510 key pairs; the claim that no further such key exists rests on the orders of the curve and of its twist", "anchors": ["src/curve25519.rs: dh"]}
{"id": "C55", "title": "X25519 public keys: collisions and non-degeneracy", "statement": "gen_pk of two secret keys is equal exactly when the clamped scalars are equal or add up to 8L (such pairs exist); a public key made by gen_pk never gives the all-zero secret with any secret key.", "quantifier": "all pairs of 32-byte secret keys, both build modes", "why_tests_cant": "quantifies over all pairs of keys; depends on the order of the base point", "anchors": ["src/curve25519.rs: gen_pk, dh"]}
{"id": "C56", "title": "The X25519 secret determines the peer's public key", "statement": "For keys made by gen_pk, dh(gen_pk(a), b) = dh(gen_pk(a'), b) exactly when gen_pk(a) = gen_pk(a').", "quantifier": "all triples of 32-byte secret keys, both build modes", "why_tests_cant": "quantifies over all triples of keys", "anchors": ["src/curve25519.rs: gen_pk, dh"]}
{"id": "C57", "title": "verify agrees with RFC 8032 verification", "statement": "Whatever verify accepts satisfies [8][S]B = [8]R + [8][k]A with the unreduced hash k, for every key including small and mixed order; with a canonical key and S < L it is a valid RFC 8032 signature. Conversely RFC-valid signatures with R and A in the prime-order subgroup are accepted, and every signature made by sign is RFC-valid.", "quantifier": "all messages (below the hash length limit), signatures and keys, both build modes", "why_tests_cant": "the set of accepted inputs is infinite; agreement of the reduced and unreduced equation needs the group order", "anchors": ["src/ed25519.rs: verify, sign"]}
{"id": "C58", "title": "The second half of a signature is determined modulo L", "statement": "For a given message, key and R, any two accepted values of S agree modulo L; at most one accepted S is below L.", "quantifier": "all messages, keys and pairs of signatures, both build modes", "why_tests_cant": "quantifies over all pairs of signatures", "anchors": ["src/ed25519.rs: verify"]}
{"id": "C59", "title": "Ed25519 public keys collide only for equal secret scalars", "statement": "gen_pk(sk) = gen_pk(sk') exactly when the clamped hash scalars of sk and sk' are equal.", "quantifier": "all pairs of 32-byte secret keys, both build modes", "why_tests_cant": "quantifies over all pairs of keys", "anchors": ["src/ed25519.rs: gen_pk"]}
{"id": "C60", "title": "Ed25519 public keys have order exactly L", "statement": "The point encoded by gen_pk(sk) has order exactly L, never small order; under such a key verify is the strict equation [S]B = R + [k]A and every accepted R lies in the prime-order subgroup.", "quantifier": "all secret keys, messages and signatures, both build modes", "why_tests_cant": "quantifies over all keys and signatures", "anchors": ["src/ed25519.rs: gen_pk, verify"]}
{"id": "C61", "title": "A GCM forger's chance is bounded by the message length", "statement": "Fix an observed encryption (data, ct, t) and a forgery attempt (data', ct', t') with (data', ct') different from (data, ct). There is a set of at most max(blocks, blocks') 16-byte strings, depending only on these, such that decrypt accepts the attempt under the nonce of the observed encryption only if the block cipher maps the zero block into that set.", "quantifier": "all data, ciphertexts and tags; all keys, nonces, messages and build modes; any 128-bit block cipher, and AES-128/192/256", "why_tests_cant": "counts the keys accepting a forgery, among 2^128 hash keys", "anchors": ["src/gcm.rs: encrypt, decrypt", "src/ghash.rs: ghash"]}
{"id": "C62", "title": "A ChaCha20-Poly1305 forger's chance is bounded by the message length", "statement": "Fix an observed encryption (data, ct, t) and a forgery attempt (data', ct', t') with (data', ct') different from (data, ct). There is a set of at most 1480*max(blocks, blocks') numbers, depending only on these, such that decrypt accepts the attempt under the nonce of the observed encryption only if the clamped multiplier r of the one-time key is in that set. (8*max(blocks, blocks') would be RFC 8439's bound; the code's final reduction costs a factor 185.)", "quantifier": "all data, ciphertexts (below 2^64 bytes) and tags; all keys, nonces, messages and build modes", "why_tests_cant": "counts the keys accepting a forgery, among 2^106 multipliers", "anchors": ["src/poly1305.rs: encrypt, decrypt, poly1305, freeze"]}
{"id": "C63", "title": "A SHA-2 collision exposes a collision of the compression function", "statement": "If the code returns the same digest for two different messages, then among the (chaining value, block) arguments of the compression function met while hashing the two messages there are two different ones with the same (truncated) result; for SHA-256 and SHA-512 with exactly the same result.", "quantifier": "all pairs of different messages below 2^61 bytes, all four functions, both build modes", "why_tests_cant": "no collision is known, so no test can exercise it; padding errors that lose injectivity pass every vector", "anchors": ["src/sha2.rs: update, pad, process, write_digest"]}
{"id": "C64", "title": "HMAC and HKDF collisions expose hash collisions", "statement": "If HMAC gives the same tag for two (key, message) pairs, the normalised keys and the messages are equal, or the inner or the outer hash inputs are two different strings with the same digest. Two different infos for which hkdf::expand derives the same first block expose such a hash collision as well.", "quantifier": "all keys and messages below the length limit, all four hashes, both build modes", "why_tests_cant": "no collision is known, so no test can exercise it", "anchors": ["src/hmac.rs: Hmac", "src/hkdf.rs: expand"]}
{"id": "C65", "title": "Overflow checks only turn results into panics", "statement": "For every public function, and every sequence of update/encrypt calls on a hash, HMAC or ChaCha20 stream object: whatever the call returns in a build with overflow checks (including the new contents of output buffers and of the object), it returns in a build without them.", "quantifier": "all inputs of all lengths, every object state, no side conditions", "why_tests_cant": "a run with overflow checks and a run without are compared on every input", "anchors": ["src/sha2.rs", "src/hmac.rs", "src/hkdf.rs", "src/gcm.rs", "src/chacha20.rs", "src/poly1305.rs", "src/curve25519.rs", "src/ed25519.rs"]}
{"id": "C66", "title": "Comparing authentication tags takes time independent of the tags", "statement": "Whether and where a presented tag differs from the expected one does not influence any branch or any memory access of the comparison; only the lengths do.", "quantifier": "all pairs of pairs of byte strings with equal lengths", "why_tests_cant": "a measurement compares a few runs; the claim compares every pair of runs", "anchors": ["src/util.rs: verify_16"]}
{"id": "C67", "title": "AES and AES-GCM take time independent of keys and data", "statement": "Key expansion, block encryption, GCM encryption: two runs on inputs of equal lengths take the same branches and access the same positions, whatever key, message, nonce and associated data. GCM decryption: the same if both or neither tag is accepted; in particular for any two genuine ciphertexts of equal lengths.", "quantifier": "all keys, nonces, messages, associated data, tags and buffers of equal lengths, all three key sizes, builds without overflow checks", "why_tests_cant": "a measurement compares a few runs; the claim compares every pair of runs", "anchors": ["src/aes.rs", "src/ghash.rs", "src/gcm.rs"]}
{"id": "C68", "title": "ChaCha20 and ChaCha20-Poly1305 take time independent of keys and data", "statement": "A stream object reveals only the lengths of the pieces it is given, in any sequence of calls. AEAD encryption reveals only lengths; decryption lengths and the accept/reject outcome.", "quantifier": "all keys, nonces, sequences of pieces, messages, associated data, tags of equal lengths, builds without overflow checks", "why_tests_cant": "a measurement compares a few runs; the claim compares every pair of runs", "anchors": ["src/chacha20.rs", "src/poly1305.rs"]}
{"id": "C69", "title": "SHA-2, HMAC and HKDF take time independent of keys and data", "statement": "Hashing in any split into pieces, HMAC tag and verify, HKDF extract and expand reveal only lengths through branches and memory accesses; HMAC verification does not even reveal its outcome.", "quantifier": "all inputs of equal lengths, all splits, all four hash functions, builds without overflow checks", "why_tests_cant": "a measurement compares a few runs; the claim compares every pair of runs", "anchors": ["src/sha2.rs", "src/hmac.rs", "src/hkdf.rs"]}
{"id": "C70", "title": "X25519 takes time independent of secret and public keys", "statement": "gen_pk and dh take the same branches and access the same positions for all keys.", "quantifier": "all secret keys and public keys (of equal lengths), builds without overflow checks", "why_tests_cant": "a measurement compares a few runs; the claim compares every pair of runs", "anchors": ["src/curve25519.rs: gen_pk, dh, scalarmult"]}
{"id": "C71", "title": "Ed25519 key generation and signing take time independent of the secret key", "statement": "gen_pk and sign take the same branches and access the same positions for all secret keys and for all messages of equal length; in particular the table of base point multiples is read at positions independent of the secret scalar.", "quantifier": "all secret keys and messages of equal lengths, builds without overflow checks", "why_tests_cant": "a measurement compares a few runs; the claim compares every pair of runs", "anchors": ["src/ed25519.rs: gen_pk, sign, GeP3::from_scalarmult_base, select"]}
{"id": "C72", "title": "Which X25519 public keys are interchangeable", "statement": "Two public keys lead to the same shared secret exactly when the RFC 7748 function with scalar 8 maps them to the same value, which does not depend on the secret key; in particular u and 1/u always lead to the same secret, so the secret alone does not identify the peer's key.", "quantifier": "all pairs of 32-byte public keys, all secret keys", "why_tests_cant": "there are 2^255 public keys and 2^251 scalars; interchangeability is a statement about all of them", "anchors": ["src/curve25519.rs: dh, scalarmult"]}
{"id": "C73", "title": "Which X25519 secret keys are interchangeable", "statement": "Two secret keys derive the same secret from a public key exactly when the public key has small order (both get zeros), or the clamped scalars are equal, or they add up to 8 times the large prime factor of the order of the curve (twist) the public key lies on.", "quantifier": "all public keys and all pairs of secret keys", "why_tests_cant": "there are 2^251 scalars per public key", "anchors": ["src/curve25519.rs: dh, scalarmult"]}
{"id": "C74", "title": "An Ed25519 signature binds its message", "statement": "Under a public key that is not of small order (all keys made by gen_pk are not) one signature is accepted for two messages only if SHA-512 of R||key||message collides modulo L; so two messages get the same signature only if there is such a collision.", "quantifier": "all keys, messages and signatures", "why_tests_cant": "the claim is about every pair of messages", "anchors": ["src/ed25519.rs: verify, sign"]}
{"id": "C75", "title": "Ed25519 nonces: when they repeat and what that costs", "statement": "Two signatures of one key start with the same R exactly when the derived nonces agree modulo L; two accepted signatures with the same R and different challenges determine the secret scalar, and that scalar suffices to sign any message.", "quantifier": "all keys, messages and signatures (however they were made)", "why_tests_cant": "nonce repetition never occurs in a test", "anchors": ["src/ed25519.rs: sign, verify"]}
{"id": "C76", "title": "Ed25519 verification is stricter than RFC 8032 about small-order components", "statement": "For every key made by gen_pk and every message there is a signature that satisfies the RFC 8032 equation (with the cofactor) and that verify rejects: it checks the equation without the cofactor.", "quantifier": "all secret keys and messages", "why_tests_cant": "an existential for every key and message", "anchors": ["src/ed25519.rs: verify"]}
{"id": "C77", "title": "What reusing a GCM nonce costs", "statement": "Two encryptions under one key and nonce with different data or ciphertext confine the hash key to a set of at most as many elements as there are blocks, computable from what was sent; and the hash key with one encryption suffices to produce an accepted tag for any data and ciphertext under that nonce.", "quantifier": "all keys, nonces, messages and data", "why_tests_cant": "the claim is about every key", "anchors": ["src/gcm.rs: encrypt, decrypt", "src/ghash.rs"]}
{"id": "C78", "title": "GCM does not commit to the key", "statement": "For any two keys (also of different sizes) whose ciphers differ on the zero block, any nonce, data and any whole-block ciphertext prefix, one more block exists such that the ciphertext is accepted with the same tag under both keys. Callers must not rely on successful decryption to identify the key.", "quantifier": "all pairs of keys, nonces, data and prefixes", "why_tests_cant": "an existential for every pair of keys", "anchors": ["src/gcm.rs: decrypt", "src/ghash.rs"]}
{"id": "C79", "title": "GCM over a random block function hides messages perfectly", "statement": "With the block cipher replaced by a function on blocks, for any number of encryptions under pairwise different nonces and two candidate lists of messages of equal lengths, every observation (ciphertexts, tags, panics) arises from exactly as many block functions with the one list as with the other.", "quantifier": "all lists of encryptions with distinct nonces, all pairs of message lists of equal lengths, all observations, both build modes", "why_tests_cant": "it compares sets of all functions on 128-bit blocks", "anchors": ["src/gcm.rs: encrypt, process, block"]}
{"id": "C80", "title": "Forging GCM over a random block function", "statement": "Whatever encryptions under distinct nonces have been observed, among the block functions that explain them at most the fraction a*n/2^128 accepts any of a attempts that are not replays, n being the largest number of authenticated blocks.", "quantifier": "all transcripts with distinct nonces, all lists of attempts", "why_tests_cant": "it bounds a count over all functions on 128-bit blocks", "anchors": ["src/gcm.rs: encrypt, decrypt", "src/ghash.rs"]}
{"id": "C81", "title": "ChaCha20-Poly1305 over a random block function hides messages perfectly", "statement": "With the ChaCha20 block function replaced by a function from nonce and counter to blocks, for any number of encryptions under pairwise different nonces and two candidate lists of messages of equal lengths (each at most 2^38-64 bytes), every observation (ciphertexts, tags, panics) arises from exactly as many block functions with the one list as with the other. With ChaCha20 in its place the parametrised algorithm is that of the code.", "quantifier": "all lists of encryptions with distinct nonces, all pairs of message lists of equal lengths, all observations, both build modes", "why_tests_cant": "it compares sets of all block functions", "anchors": ["src/poly1305.rs: encrypt, decrypt, process"]}
{"id": "C82", "title": "Forging ChaCha20-Poly1305 over a random block function", "statement": "Whatever encryptions under distinct nonces have been observed, among the block functions that explain them at most the fraction a*1480*n/2^106 accepts any of a attempts that are not replays, n being the largest number of authenticated blocks (1480 instead of 8 because of the incorrect final reduction).", "quantifier": "all transcripts with distinct nonces and messages up to 2^38-64 bytes, all lists of attempts", "why_tests_cant": "it bounds a count over all block functions", "anchors": ["src/poly1305.rs: encrypt, decrypt, process, poly1305, load_r, freeze"]}
{"id": "C83", "title": "What AES-GCM leaves in the buffer, also when it panics", "statement": "After encrypt, returned or panicked, the output buffer is unchanged if a documented condition is broken and otherwise holds the ciphertext of the first min(len, 16*(2^32-3)) bytes (of all bytes without overflow checks) followed by its old contents. decrypt touches the buffer only if the conditions hold and the tag is the right one; no panic leaves unauthenticated plaintext. The buffer keeps its length.", "quantifier": "all keys, inputs, nonces, data, tags and buffers; both build modes; every panic point", "why_tests_cant": "the panic points lie at messages of 64 GiB and depend on every length", "anchors": ["src/gcm.rs: encrypt, decrypt, Processor::process, check_bounds"]}
{"id": "C84", "title": "What ChaCha20-Poly1305 leaves in the buffer, also when it panics", "statement": "After encrypt, returned or panicked, the output buffer is unchanged if a documented condition is broken and otherwise holds the ciphertext of the first min(len, 64*(2^32-2)) bytes (of all bytes without overflow checks) followed by its old contents; it panics exactly if a condition is broken or, with overflow checks, from 2^32-2 blocks on. The outcome of decrypt is determined completely: the buffer is touched only when the tag equals the one expected tag.", "quantifier": "all keys, inputs, nonces, data, tags and buffers; both build modes; every panic point", "why_tests_cant": "the panic points lie at messages of 256 GiB", "anchors": ["src/poly1305.rs: encrypt, decrypt, process"]}
{"id": "C85", "title": "A ChaCha20 stream survives caught panics", "statement": "Under any history of next, encrypt and decrypt calls on one stream object, with every panic caught, the object behaves as a position in the RFC 8439 keystream: each call uses up and writes exactly the keystream bytes that are left (with overflow checks 2^38 in all), leaves the rest of its buffer unchanged, and returns iff it got all it asked for; a length mismatch changes nothing. After exhaustion every further request panics and changes nothing.", "quantifier": "all keys, nonces and histories of calls; both build modes", "why_tests_cant": "it quantifies over all histories, and the exhaustion point is at 256 GiB", "anchors": ["src/chacha20.rs: Stream::next, Stream::process"]}
{"id": "C86", "title": "What HKDF leaves in the buffer, also when it panics", "statement": "extract writes all of prk or, if it panics, nothing, for every hash function. expand leaves okm unchanged if a documented condition is broken; otherwise okm holds the RFC 5869 output, with overflow checks only the first 254 digests of it followed by the old contents.", "quantifier": "all salts, keys, infos and buffers; both build modes; every panic point", "why_tests_cant": "it quantifies over all inputs and panic points", "anchors": ["src/hkdf.rs: extract, expand"]}
{"id": "C87", "title": "SHA-2 objects survive caught panics", "statement": "After any sequence of update calls with panics caught, a hash object is the object that received only the inputs whose calls returned, so its digest is the digest of their concatenation; with overflow checks the calls that return are exactly those that keep the total below 2^64 bytes, without them all return. write_digest leaves its buffer unchanged when it panics.", "quantifier": "all sequences of inputs, all four hash functions, both build modes", "why_tests_cant": "it quantifies over all call histories, and the panics need 2^64 bytes", "anchors": ["src/sha2.rs: update, write_digest"]}
{"id": "C88", "title": "Ed25519 keys convert to X25519 keys", "statement": "For every Ed25519 secret key, the X25519 public key of the first half of its SHA-512 digest is the image of the Ed25519 public key under the RFC 7748 birational map u = (1+y)/(1-y); more generally X25519 dh on the image of any edwards25519 point is the image of the clamped multiple of that point. Hence two parties holding Ed25519 key pairs agree on an X25519 secret through the converted keys.", "quantifier": "all 32-byte secret keys, all points of the curve, both build modes", "why_tests_cant": "it relates two independently written implementations on 2^256 keys", "anchors": ["src/ed25519.rs: gen_pk", "src/curve25519.rs: dh, gen_pk"]}
{"id": "C89", "title": "AES-GCM construction against adaptive adversaries", "statement": "With a uniformly random block function in place of the block cipher: an adversary that encrypts any number of messages under fresh nonces and makes at most a decryption attempts, choosing every call after seeing all earlier answers, gets anything accepted that encrypt did not return with probability at most a*n/2^128 (n: blocks per call), and distinguishes which of two equally long messages is encrypted in each call with advantage at most 2*a*n/2^128, zero if it makes no decryption attempts.", "quantifier": "all adaptive adversaries, all numbers and lengths of calls below 2^36 bytes, both build modes", "why_tests_cant": "it quantifies over all adversaries and all block functions", "anchors": ["src/gcm.rs: encrypt, decrypt"]}
{"id": "C90", "title": "ChaCha20-Poly1305 construction against adaptive adversaries", "statement": "With a uniformly random block function (nonce, counter to block) in place of ChaCha20: the same two claims as C89 with bounds 1480*a*n/2^106 and twice that (1480 instead of 8 because of the incorrect final reduction).", "quantifier": "all adaptive adversaries, all numbers and lengths of calls below 2^38 bytes, both build modes", "why_tests_cant": "it quantifies over all adversaries and all block functions", "anchors": ["src/poly1305.rs: encrypt, decrypt"]}
{"id": "C91", "title": "AES-GCM construction over a random permutation", "statement": "With a uniformly random permutation of the 128-bit blocks in place of the block cipher, the adversaries of C89 forge with probability at most a*n/2^128 + s(s-1)/2^129 and distinguish with advantage at most 2*a*n/2^128 + s(s-1)/2^128, s being the number of block cipher calls. AES under any key is such a permutation and AES-GCM of the code is GCM over it.", "quantifier": "all adaptive adversaries, all permutations, both build modes", "why_tests_cant": "it quantifies over all adversaries and all permutations", "anchors": ["src/gcm.rs: encrypt, decrypt", "src/aes.rs: BlockCipher"]}
{"id": "C92", "title": "Wrong Poly1305 tags are rare", "statement": "For every pair of associated data and ciphertext with n authenticated 16-byte blocks, at most 2^31*n of the 2^106 clamped multipliers, and at most 2^181*n of the 2^256 one-time keys, make the ChaCha20-Poly1305 authenticator return anything but the RFC 8439 tag: for a uniformly random one-time key the chance is at most n/2^75.", "quantifier": "all data and ciphertexts of any length, all 32-byte one-time keys, both build modes", "why_tests_cant": "the bound counts a set of 2^256 keys for every message; no test meets a bad key by chance", "anchors": ["src/poly1305.rs: poly1305, freeze"]}
{"id": "C93", "title": "Seeking in a ChaCha20 stream, and the AEAD as a stream", "statement": "Stream::nth(n) yields the byte after n skipped ones and leaves the stream behind it, so encrypting after nth(n) on a new stream uses RFC 8439 keystream bytes n+1, n+2, ...; ChaCha20Poly1305::encrypt gives exactly what a Stream of the same key and nonce gives: its first 32 bytes are the one-time key, the next 32 are dropped, the rest encrypts the message.", "quantifier": "all keys, nonces, messages, data, positions, stream states, both build modes", "why_tests_cant": "positions and messages are unbounded; tests seek to one position", "anchors": ["src/chacha20.rs: Iterator for Stream, Stream::encrypt", "src/poly1305.rs: ChaCha20Poly1305::encrypt"]}
{"id": "C94", "title": "SHA-256 and SHA-512 digests can be extended", "statement": "From sha256 (or sha512) of a message and the message's length alone one can compute, by an explicit procedure, the digest of that message followed by its padding and any suffix. Hence the digest of a secret key followed by a message does not authenticate the message: one observed value and the key's length give the value for a longer message.", "quantifier": "all messages, keys and suffixes whose total length is below 2^61 bytes, both build modes", "why_tests_cant": "it relates digests of all messages", "anchors": ["src/sha2.rs: sha256, sha512, pad, process"]}
{"id": "C95", "title": "HMAC and HKDF over the caller's own hash function", "statement": "For any implementor of HashFunction that computes some function on inputs below 2^61 bytes independently of how they are split, with a digest of 1 to 64 bytes not longer than its block: Hmac (message split in any way), hmac::verify, hkdf::extract and hkdf::expand over it are RFC 2104 and RFC 5869 over that function. With a digest longer than 64 bytes Hmac::tag, hmac::verify, hkdf::extract and any non-empty hkdf::expand panic on every input.", "quantifier": "all implementors of the trait, all keys, messages, splits, infos and output lengths, both build modes", "why_tests_cant": "the trait is public: tests cover the four SHA-2 implementors only", "anchors": ["src/hmac.rs: Hmac, verify", "src/hkdf.rs: extract, expand", "src/sha2.rs: HashFunction, MAX_DIGEST_SIZE"]}
{"id": "C96", "title": "GCM over the caller's own block cipher", "statement": "For every implementor E of the public trait BlockCipher whose permute is a function from 16-byte blocks to 16-byte blocks (not necessarily a permutation), Gcm<E>::encrypt panics exactly under the documented conditions (or, with overflow checks, for too many blocks) and otherwise returns the SP 800-38D ciphertext and tag over that block function; decrypt accepts exactly that tag, writes the plaintext only then and leaves the buffer alone otherwise; and decrypting what encrypt produced gives the message back.", "quantifier": "every block function, cipher state, key stream, message, nonce, data, tag, buffer and build mode", "why_tests_cant": "Tests exercise the three AES instances; the generic code is promised for every implementor.", "anchors": ["src/gcm.rs:Gcm::encrypt", "src/gcm.rs:Gcm::decrypt", "src/aes.rs:BlockCipher"]}
{"id": "C97", "title": "GCM under weak hash keys", "statement": "The code never checks the hash key (the cipher's value on the zero block). If it is zero, the tag of one observed encryption is accepted under that nonce with every other data and ciphertext. If its k-th power in GF(2^128) is 1, exchanging two whole ciphertext blocks at distance k goes unnoticed.", "quantifier": "every block cipher, key, message, nonce, data, build mode and forgery of the stated form", "why_tests_cant": "No test key has a weak hash key, and the statement is about all messages and all forgeries.", "anchors": ["src/gcm.rs:Processor::ghash", "src/gcm.rs:Processor::tag", "src/ghash.rs:ghash"]}
{"id": "C98", "title": "What reusing a ChaCha20-Poly1305 nonce costs", "statement": "Two encryptions of different (data, ciphertext) pairs under one key and nonce confine the secret Poly1305 multiplier to a set computable from what was sent, of at most 1480 elements per authenticated block; and the multiplier with one observed encryption suffices to compute, for any data and any ciphertext, a tag decrypt accepts under that nonce.", "quantifier": "every key, nonce, pair of messages and data, every forged data and ciphertext, every build mode", "why_tests_cant": "Ranges over all keys and messages, and bounds the number of possible secrets.", "anchors": ["src/poly1305.rs:ChaCha20Poly1305::encrypt", "src/poly1305.rs:ChaCha20Poly1305::decrypt", "src/poly1305.rs:poly1305"]}
{"id": "C99", "title": "The AeadCipher contract", "statement": "Code generic in the public trait AeadCipher may rely on the same contract from every implementor in the crate (GCM over each AES, GCM over any block function, ChaCha20-Poly1305), for every object new returns: the ciphertext has the message's length and the tag 16 bytes; the buffer's old contents do not matter; a prefix of a message is encrypted to a prefix; decrypt undoes encrypt; a rejected ciphertext leaves the buffer as it was; an accepted one is exactly what encrypt makes of the returned plaintext, with at most one tag per nonce, data and ciphertext. new panics exactly on the wrong key length.", "quantifier": "every implementor, key, message, nonce, data, tag, buffer and build mode", "why_tests_cant": "Each clause ranges over all inputs, and the contract is about any generic client.", "anchors": ["src/gcm.rs:AeadCipher", "src/gcm.rs:Gcm", "src/poly1305.rs:ChaCha20Poly1305"]}
{"id": "C100", "title": "Keys that hkdf::expand derives for different contexts are independent", "statement": "Under one prk, hkdf::expand uses prk only through HMAC. Two of the HMAC calls made by any calls of expand have the same input only if they belong to the same context info and the same block position. Consequently, with a uniformly random function in place of HMAC under prk, the outputs for any list of different contexts, of any lengths expand accepts, are uniformly distributed and independent: any given outputs occur for exactly one function in 256^(total length), and the outputs for other contexts say nothing about the output for a new one.", "quantifier": "all SHA-2 variants and builds, all functions in place of HMAC, all lists of pairwise different contexts, all output lengths up to 255 digests, all outputs", "why_tests_cant": "It is a statement about the distribution over all functions and about every pair of contexts; a test evaluates one key and a few contexts.", "anchors": ["src/hkdf.rs: expand", "src/hmac.rs: Hmac"]}
{"id": "C101", "title": "X25519, HKDF, an AEAD and Ed25519 work together", "statement": "An application derives an AEAD object with curve25519::dh, hkdf::extract, hkdf::expand and new, encrypts a message and signs ciphertext and tag with ed25519::sign; its peer verifies the signature, derives its object from its own secret and the sender's public key, and decrypts. For all secrets, salts, contexts, nonces, data and messages within the documented limits, each of the SHA-2 hashes, each of the four AEADs, and whatever the builds of the two parties, nothing panics, both derive the same object, and the receiver gets the message. Whatever the receiver accepts has a valid signature and is what encrypting its output again would give.", "quantifier": "all 32-byte secrets, all salts, contexts, 12-byte nonces, data and messages within the limits, all hashes and AEADs, all pairs of builds, all received ciphertexts, tags and signatures", "why_tests_cant": "It composes five modules over all keys and messages, and both builds; an integration test runs one session.", "anchors": ["src/curve25519.rs: gen_pk, dh", "src/hkdf.rs: extract, expand", "src/gcm.rs: AeadCipher", "src/poly1305.rs: ChaCha20Poly1305", "src/ed25519.rs: gen_pk, sign, verify"]}
{"id": "C102", "title": "Forging Ed25519 signatures is as hard as discrete logarithms", "statement": "Put uniformly random functions in place of the two hashes of `sign` and `verify` (the nonce hash, keyed by the secret half of the expanded key, and the hash of R || key || message). Take any key and any forger that calls the hash function at most q times and the signer at most s times, each call depending on all earlier answers. Let e be the probability that it ends with a signature that `verify` accepts for a message that was never signed, and d = (s(q+s+1)+1)/2^252. If e >= d, then a fixed procedure that knows only the public key, runs the forger, rewinds it once and runs it again, finds the discrete logarithm of the public key with a probability p such that (e-d)^2 <= q (p + 2^-252). In particular the signatures that the signer gives out do not help. With SHA-512 in place of the random functions the code in question is the crate's gen_pk, sign and verify. A forger that asks for at most s signatures and never evaluates SHA-512 forges with probability at most (s(s+1)+1)/2^252, without any assumption about logarithms.", "quantifier": "all expanded keys (64 bytes), all adaptive forgers, all numbers of hash and signature queries, both build modes; the probability is over all pairs of functions from byte strings of bounded length to 64-byte digests", "why_tests_cant": "It is a statement about every adversary and about probabilities of the order 2^-252; a test can only run one forger against one hash function.", "anchors": ["src/ed25519.rs: sign, verify, gen_pk", "src/ed25519.rs: sc_reduce, sc_muladd"]}
{"id": "C103", "title": "Ed25519 signatures are unforgeable if SHA-512 is a random oracle and discrete logarithms are hard", "statement": "Put one uniformly random function H in place of every SHA-512 call of gen_pk, sign and verify (key expansion, nonce and challenge) and draw the 32-byte secret key uniformly. Take any forger that sees the public key, calls H at most q times and the signer at most s times, adaptively. Let e be the probability that it ends with a signature that `verify` accepts for a message that was never signed, d = ((s+1)(q+s+1)+1)/2^252, and p the probability that the extractor of C102, given only a random public key, finds its discrete logarithm. If e >= d then (e-d)^2 <= q (p + 2^-252). With SHA-512 as H the functions are those of the crate.", "quantifier": "all adaptive forgers, all numbers of queries, both build modes; the probability is over all secret keys and all functions from byte strings of at most N bytes to digests, for every N >= 32", "why_tests_cant": "It ranges over every adversary and over every hash function; the security of the key expansion and of the nonces against queries to the same hash function cannot be observed in a run.", "anchors": ["src/ed25519.rs: gen_pk, sign, verify"]}
{"id": "C104", "title": "HMAC is pseudorandom and unforgeable if the SHA-2 compression function behaves like a random function", "statement": "Put a uniformly random function in place of the compression function in the hash code (everything else, buffering, padding, key blocks and the two passes of HMAC, is the crate's) and draw the key uniformly from the byte strings of kl bytes, kl at most one block. Any attacker that evaluates the compression function at most p times and adaptively has tags computed or verified for texts of at most c blocks altogether ends with any given outcome with a probability that differs from that for an independent random function in place of HMAC by at most 2p/256^kl + (c+2)(c+p+3)/256^size; no call panics. With t verifications it gets a tag accepted for a text it never asked about with probability at most t/256^size plus that error. With the crate's compression function the functions are those of the crate.", "quantifier": "all adaptive attackers and outcomes, the four hash functions, all key lengths up to a block, all text lengths below the limit, both build modes; the probability is over all keys and all compression functions", "why_tests_cant": "It is a statement about all attackers and about an average over all compression functions and keys; no run can show it.", "anchors": ["src/hmac.rs: Hmac, wrapper, verify", "src/sha2.rs: update, pad, write_digest"]}
{"id": "C105", "title": "Keys from hkdf::expand are uniform and independent if the SHA-2 compression function behaves like a random function", "statement": "As in C104 the compression function is a uniformly random function and everything else is the crate's code. `prk` is uniformly random, at least a digest and at most a block long. Any attacker that evaluates the compression function at most p times and adaptively calls `expand` for contexts and output lengths of its choice (repetitions allowed), with texts for HMAC of at most c blocks altogether, ends with any given outcome with a probability that differs by at most 2p/256^kl + (c+2)(c+p+3)/256^size from that when each output is the prefix of the value at the context of an independent random function from contexts to strings of 255 digests; no call panics.", "quantifier": "all adaptive attackers and outcomes, the four hash functions, all key, context and output lengths within the documented limits (fewer than 254 digests when overflow checks are on), both build modes; the probability is over all keys and compression functions", "why_tests_cant": "It is a statement about all attackers and about an average over all compression functions and keys; no run can show it.", "anchors": ["src/hkdf.rs: expand", "src/hmac.rs: Hmac", "src/sha2.rs: update, pad, write_digest"]}
{"id": "C106", "title": "HKDF turns any secret that is hard to guess into uniform independent keys if the SHA-2 compression function behaves like a random function", "statement": "As in C104 the compression function is a uniformly random function and everything else is the crate's code. The salt is public, of at most a block. The input keying material is drawn from any distribution in which no value has probability above d. (1) An attacker that gets the output of `extract` and evaluates the compression function at most p times cannot tell it from an independent uniform string except with advantage (p+2)d + ((p+2)(p+3) + l(l+2p+5))/256^size, l being the number of blocks of the longest input. (2) An attacker that adaptively calls `expand` with the output of `extract`, for contexts and lengths of its choice, cannot tell the outputs from prefixes of an independent random function of the context except with that advantage (p+4c for p) plus that of C105. No call panics.", "quantifier": "all distributions of the secret, all public salts of at most a block, all adaptive attackers and outcomes, the four hash functions, all lengths within the limits, both build modes; the probability is over the secret and all compression functions", "why_tests_cant": "It ranges over every distribution and every attacker and averages over all compression functions; no run can show it.", "anchors": ["src/hkdf.rs: extract, expand", "src/hmac.rs: Hmac", "src/sha2.rs: update, pad, write_digest"]}
{"id": "C107", "title": "HKDF of a secret about which something is public gives uniform independent keys unless the attacker finds the secret", "statement": "As in C104 the compression function is a uniformly random function and everything else is the crate's code. A uniformly random sample k determines the input keying material (short enough to fit one padded block) and anything the attacker may know from the start. `extract` is called once with a public salt, and the attacker calls `expand` adaptively (c blocks) and evaluates the compression function at most p times. Every outcome has the same probability as when the keys are prefixes of the values of an independent random function of the context, up to (terms of order (p+c)^2/256^size) plus the probability that, in that second world, where nothing else depends on the secret, the attacker itself evaluates the compression function on a block that starts with the secret. No call panics.", "quantifier": "all samples spaces, secrets, side information, public salts of at most a block, adaptive attackers and outcomes, the four hash functions, both build modes; the probability is over the sample and all compression functions", "why_tests_cant": "It ranges over every attacker and every kind of side information and averages over all compression functions; no run can show it.", "anchors": ["src/hkdf.rs: extract, expand", "src/hmac.rs: Hmac", "src/sha2.rs: update, pad, write_digest"]}
{"id": "C108", "title": "Keys derived by HKDF from an X25519 exchange are uniform and independent unless the attacker solves Diffie-Hellman", "statement": "Two uniformly random 32-byte secret keys; public keys by `gen_pk`, shared secret by `dh` (both parties get the same one and nothing panics), `extract` with a public salt, keys by `expand`. The attacker knows both public keys, calls `expand` adaptively and evaluates the compression function of SHA-2, a uniformly random function, at most p times. Every outcome has the same probability as with keys that are prefixes of the values of an independent random function of the context, up to terms of order (p+c)^2/256^size plus the probability that in that second world, where it only knows the public keys, the attacker evaluates the compression function on a block that starts with the shared secret.", "quantifier": "all adaptive attackers and outcomes, all public salts of at most a block, the four hash functions, both build modes; the probability is over both secret keys and all compression functions", "why_tests_cant": "It ranges over every attacker and averages over all keys and compression functions; no run can show it.", "anchors": ["src/curve25519.rs: gen_pk, dh", "src/hkdf.rs: extract, expand", "src/hmac.rs: Hmac", "src/sha2.rs: update, pad, write_digest"]}
{"id": "C109", "title": "The hash functions resist collisions, preimages and second preimages when the compression function is random", "statement": "The compression function of SHA-2 is a uniformly random function and everything else (buffering, padding, length encoding, truncation) is the crate's code. An attacker evaluates the compression function adaptively at most p times and then names messages of at most N bytes (b blocks). (1) The probability that it names two different messages with the same digest is at most (p+2b)(p+2b+1)/256^size. (2) The probability that it names a message whose digest is one of t given digests is at most (p+b)t/256^size. (3) The probability that it names a message different from a given message of b' blocks with the same digest is at most (p+b+b')(b'+1)/256^size.", "quantifier": "all adaptive attackers, all lists of target digests, all given messages below 2^61 bytes, the four hash functions, both build modes; the probability is over all compression functions", "why_tests_cant": "It ranges over every attacker and averages over all compression functions; a test can only fail to find a collision.", "anchors": ["src/sha2.rs: sha224, sha256, sha384, sha512, update, pad, write_digest"]}
{"id": "C110", "title": "An encrypted channel whose key comes from the key exchange is as good as one under a random key", "statement": "Two parties draw uniformly random 32-byte X25519 secret keys, exchange public keys, compute the shared secret and derive the key of an authenticated cipher with HKDF. No call panics and both get the same key. Let the compression function of SHA-2 be uniformly random, and let an attacker see both public keys, evaluate the compression function and attack the channel (choose messages to seal, choose ciphertexts to open) adaptively. The probability of any outcome differs from the one against a channel under an independent, uniformly random key by at most an explicit tiny error plus the probability that the attacker evaluates the compression function on the shared secret although it only knows the public keys. Hence the forgery and confidentiality bounds of ChaCha20-Poly1305 and AES-GCM hold end to end, with that term added.", "quantifier": "all adaptive attackers, salts and infos (bounded as for HKDF), the four hash functions, both build modes; the probability is over both secret keys and all compression functions", "why_tests_cant": "It ranges over every attacker and composes key exchange, key derivation and encryption; tests of each piece do not say anything about the composition.", "anchors": ["src/curve25519.rs: gen_pk, dh", "src/hkdf.rs: extract, expand", "src/poly1305.rs: ChaCha20Poly1305", "src/gcm.rs: Gcm"]}
{"id": "C111", "title": "HMAC and HKDF for inputs of every length", "statement": "For keys, messages, salts and infos of every length a slice can have: without overflow checks, Hmac (any splitting into update calls), the one-shot functions, verify, extract and expand give the RFC 2104 / RFC 5869 values over the hash function whose encoded bit length is taken modulo 2^64, never panicking for length. With overflow checks they give the RFC value exactly when the key is shorter than 2^61 bytes and a block plus the message is shorter than 2^61 bytes (for expand: the inputs of the HMAC calls needed for the requested output, which are info plus one byte, plus a digest from the second block on), and panic otherwise. Below these limits both builds agree with the RFCs.", "quantifier": "all keys, messages, salts, infos, outputs and splittings, the four hash functions, both build modes", "why_tests_cant": "The limits are at 2^61 bytes, which no test can feed.", "anchors": ["src/hmac.rs: Hmac::new, update, tag, write_tag, verify, hmac_sha256", "src/hkdf.rs: extract, expand", "src/sha2.rs: update, write_digest"]}
{"id": "C112", "title": "HMAC objects survive caught panics", "statement": "If an update call on an Hmac object panics and the caller catches the panic, the object is unchanged: after any sequence of update calls, panicking or not, it is the object that was given only the inputs whose calls returned, and its tag is the one of their concatenation. Without overflow checks every call returns; with them exactly those return that keep one block plus the bytes taken so far below 2^64.", "quantifier": "all keys, all sequences of inputs (hence all positions of panics), the four hash functions, both build modes", "why_tests_cant": "The panics occur at 2^64 bytes only, and the claim is about every history of calls.", "anchors": ["src/hmac.rs: Hmac, update, tag", "src/sha2.rs: update"]}
{"id": "C113", "title": "Ed25519 for messages of every length", "statement": "For a 32-byte key: without overflow checks sign and verify work for messages of every length and follow RFC 8032 with a SHA-512 whose length field wraps (which makes no difference below 2^61 bytes). With overflow checks sign panics exactly when the message is at least 2^61-64 bytes long; verify of such a message accepts nothing: it returns false for malformed signatures and undecodable keys and panics otherwise, and that together with keys of a wrong length is exactly when it panics.", "quantifier": "all messages (of any slice length), all keys, all byte strings as signatures, both build modes", "why_tests_cant": "messages of 2^61 bytes do not fit into memory, and the boundary must hold for every key, signature and message", "anchors": ["src/ed25519.rs: sign, verify", "src/sha2.rs: update, write_digest"]}
{"id": "C114", "title": "Ed25519 is strongly unforgeable, up to multiples of L in S", "statement": "As C103, with SHA-512 as a random function and a random secret key, but the forger also wins with a message that it had signed, if its signature is new: not one of those that sign returned for the message, nor one of them with a multiple of L added to S (which verify accepts, C45). With q hashes and s signatures, its probability e satisfies (e - d)^2 <= q (p + 2^-252) with d = ((s+1)(q+s+1)+1) 2^-252, where p is the probability that the extractor finds the discrete logarithm of a random public key. For signatures with S < L this is strong unforgeability in the usual sense.", "quantifier": "all forgers that choose each hash and signature request after seeing all earlier answers, any numbers of requests, both build modes", "why_tests_cant": "it is about every strategy of a forger and a probability over random functions and keys", "anchors": ["src/ed25519.rs: gen_pk, sign, verify"]}
{"id": "C115", "title": "No input makes a call slow", "statement": "The number of conditionals, loop tests and non-literal memory accesses a call performs is bounded by a fixed linear function of the lengths of its public inputs: about 8 per byte for SHA-2 and HMAC, one HMAC over prk and info per output block for HKDF expand, one AES block and one field multiplication per 16 bytes for AES-GCM, a fixed amount per 16 bytes for ChaCha20-Poly1305, a constant for X25519 and Ed25519 key generation, a constant plus hashing the message for Ed25519 sign and verify. No key, nonce, tag, ciphertext, public key or signature, well-formed or not, makes a call exceed it; calls that panic or reject are included.", "quantifier": "all inputs of all lengths, all ways of splitting the input into update or stream calls; release builds", "why_tests_cant": "a slow input may be one in 2^512 and its effect would show only in time; a bound must hold for every input", "anchors": ["src/sha2.rs: update, write_digest", "src/hmac.rs", "src/hkdf.rs: extract, expand", "src/aes.rs", "src/gcm.rs: encrypt, decrypt", "src/chacha20.rs", "src/poly1305.rs", "src/curve25519.rs: gen_pk, dh", "src/ed25519.rs: gen_pk, sign, verify, ge_double_scalarmult_vartime, slide"]}
{"id": "C116", "title": "An Ed25519 signature belongs to one key and one message", "statement": "If one signature is accepted by verify under key pk for message M and under key pk' for message M', then the hash of (R, pk, M) times pk and the hash of (R, pk', M') times pk' are the same point. If SHA-512 is a random function, then nobody finds such a signature with different (key, message) pairs, one of the keys not being of small order (every key of gen_pk qualifies): with q hashes the probability is at most (q+2)(q+3)/2^253, even for someone who knows or chooses all the secret keys. So a signature cannot be claimed under another key, nor can a signer later deny the message by showing another one with the same signature. With a key of small order this fails (C53).", "quantifier": "all signatures, keys and messages; all strategies that choose each hash after seeing the earlier answers; both build modes", "why_tests_cant": "it is about every strategy and a probability over random functions; a test cannot look for a second owner among 2^256 keys", "anchors": ["src/ed25519.rs: verify, gen_pk"]}
{"id": "C117", "title": "A raw ChaCha20 stream hides data and protects nothing else", "statement": "Over a random block function, no adversary that opens any number of streams under different nonces and sends chosen pairs of equally long messages through them, interleaved and adaptively, up to 2^38 bytes each, learns anything about which message of each pair was sent: its guess is distributed identically in both worlds. For the code under a random key its advantage is at most that of distinguishing the ChaCha20 block function from random. There is no integrity: on every stream object, flipping bits of the input of decrypt flips the same bits of its output; two messages sent through equal stream objects reveal their difference.", "quantifier": "every adaptive adversary, both build modes, every stream state, message and bit pattern", "why_tests_cant": "perfect secrecy is a statement about all keystreams and all adaptive strategies", "anchors": ["src/chacha20.rs: Stream::new, Stream::encrypt, Stream::decrypt, Stream::process, Iterator::next"]}
{"id": "C118", "title": "ChaCha20-Poly1305 does not commit to the key", "statement": "For any two keys whose one-time multipliers under a nonce are nonzero and different, any data, any tag chosen in advance and any whole-block beginning of a ciphertext, there are 24 further blocks such that decrypt accepts the resulting ciphertext with that tag under both keys, releasing under each key the plaintext that key gives. A successful decryption therefore does not show under which key a message was sent.", "quantifier": "every such pair of keys, every nonce, data, tag and ciphertext prefix, both build modes", "why_tests_cant": "existence for every pair of keys and every tag rests on an additive-combinatorics argument, not on samples", "anchors": ["src/poly1305.rs: ChaCha20Poly1305::decrypt, PolyFunction::process, poly1305"]}
{"id": "C119", "title": "AEADs with randomly drawn nonces", "statement": "If the caller draws a random 12-byte nonce for each of q encryptions (instead of guaranteeing that nonces differ), the bounds for adaptive adversaries of C89 and C90 hold with an additional q(q-1)/2^97: confidentiality advantage at most 2*a*n/2^128 + q(q-1)/2^97 and forgery probability at most a*n/2^128 + q(q-1)/2^97 for GCM over a random block function, and correspondingly for ChaCha20-Poly1305. The same holds for every cipher with the interface of the AEADs.", "quantifier": "all adaptive adversaries, all numbers of encryptions and attempts, both build modes", "why_tests_cant": "a probability over keys and nonce sequences for all adaptive strategies", "anchors": ["src/gcm.rs: Gcm::encrypt, Gcm::decrypt", "src/poly1305.rs: ChaCha20Poly1305::encrypt, decrypt"]}
{"id": "C120", "title": "Breaking the AEADs of the crate under a random key means breaking AES or the ChaCha20 block function", "statement": "For every adaptive attacker on AES-GCM or ChaCha20-Poly1305 of this crate under a uniformly random key, the chance to forge is at most the advantage with which an explicit program - it runs the attack and asks for just the blocks the code would compute - tells AES under a random key from a random permutation (the ChaCha20 block function under a random key from a random function), plus a*n/2^128 + s(s-1)/2^129 (respectively 1480*a*n/2^106) for a attempts of at most n blocks and s AES calls. Likewise for telling which of two messages was encrypted.", "quantifier": "all adaptive attackers, AES-128, AES-192 and AES-256, both build modes; the probability is over keys and permutations or functions", "why_tests_cant": "a statement about all attackers and the average over all keys", "anchors": ["src/gcm.rs: Gcm::encrypt, Gcm::decrypt", "src/aes.rs: Aes128, Aes192, Aes256", "src/poly1305.rs: ChaCha20Poly1305::encrypt, decrypt", "src/chacha20.rs: ChaCha20::block"]}
{"id": "C121", "title": "Many keys: security does not degrade with the number of users", "statement": "An application uses many independent random keys, and an attacker who may choose for each call whose key is used, with messages pairs, nonces (which may coincide between users) and ciphertexts chosen adaptively, is content with breaking any user. Over random block functions its chance to make some user accept what that user did not send is at most a*n/2^128 for GCM and 1480*a*n/2^106 for ChaCha20-Poly1305, with a the total number of attempts - the bounds for one key, whatever the number of users - and correspondingly for telling which messages were sent. For the code under random keys the advantage of an explicit distinguisher between AES (or ChaCha20) under that many keys and as many random functions is added.", "quantifier": "all numbers of users, all adaptive attackers, both build modes", "why_tests_cant": "a probability over all key tuples for all adaptive strategies", "anchors": ["src/gcm.rs: Gcm::encrypt, Gcm::decrypt", "src/poly1305.rs: ChaCha20Poly1305::encrypt, decrypt", "src/aes.rs", "src/chacha20.rs"]}
{"id": "C122", "title": "HMAC of the crate is pseudorandom and unforgeable if the SHA-2 compression function is pseudorandom (standard model)", "statement": "For every adaptive attacker that has tags computed and verified by HMAC of the crate (over SHA-224/256/384/512) under a uniformly random key of at most one block, the difference between its behaviour with HMAC and with a random function is at most the advantage of an explicit two-question test of the compression function keyed through the block, plus the advantage of an explicit q-question test of the compression function keyed through the chaining value, plus q(q-1)/2 times the inner collision probability of two fixed texts; for SHA-256 and SHA-512 that collision probability is at most 2^-bits plus the sum of the advantages of explicit two-question tests, at most one more than the text has blocks. Consequently no tag is forged with more than t/256^size plus these terms.", "quantifier": "all four hash functions, both build modes, all key lengths up to a block, all adaptive attackers with q texts and t verifications, all text length bounds up to 2^61 - block", "why_tests_cant": "a reduction over all attackers and all keys: a probability over the whole key space, with adaptively chosen messages", "anchors": ["src/hmac.rs: Hmac::new, update, tag, verify, hmac_sha256, hmac_sha512", "src/sha2.rs: process, write_digest"]}
{"id": "C123", "title": "Keys from hkdf::expand of the crate are uniform and independent if the SHA-2 compression function is pseudorandom (standard model)", "statement": "For every adaptive attacker that has keys derived by hkdf::expand of the crate under a uniformly random prk (from a digest to a block long) for contexts and lengths of its choice, q digests altogether, the outputs are told from prefixes of a random function of the context with at most the advantages of the two explicit tests of C122 for the attacker on HMAC made of it, plus q(q-1)/2 times the inner collision probability (for SHA-256 and SHA-512 at most (blocks+1)e + 2^-bits if every collision test has advantage at most e).", "quantifier": "all four hash functions, both build modes, all admissible key lengths, all adaptive attackers, all contexts and output lengths within the limits of RFC 5869", "why_tests_cant": "a reduction over all attackers and a probability over the whole key space", "anchors": ["src/hkdf.rs: expand", "src/hmac.rs: Hmac", "src/sha2.rs: process"]}
{"id": "C124", "title": "Keys that hkdf::expand derives from one random secret for different contexts serve the AEADs as independent random keys (standard model)", "statement": "Let u users (directions, epochs) have keys derived by hkdf::expand of the crate from one uniformly random secret under pairwise different contexts. For every property of the u keys, in particular every forgery or distinguishing attack of the multi-user game against AES-GCM or ChaCha20-Poly1305 of the crate, its probability differs from that for independent uniform keys by at most the advantages of two explicit tests against the SHA-2 compression function plus q(q-1)/2 times the inner collision probability; so forging and reading succeed with at most these terms plus the bounds of C121. expand never panics for these lengths.", "quantifier": "all four hash functions, all three AES key sizes and ChaCha20, both build modes, all numbers of users, all families of different contexts, all adaptive multi-user adversaries", "why_tests_cant": "a composition of reductions over all attackers and a probability over the whole key space", "anchors": ["src/hkdf.rs: expand", "src/gcm.rs: Gcm", "src/poly1305.rs: ChaCha20Poly1305", "src/gcm.rs: AeadCipher", "src/hmac.rs: Hmac", "src/sha2.rs: process"]}
{"id": "C125", "title": "Many AES-GCM keys: what counts is the data of all users times the data of one user", "statement": "Against AES-GCM of the crate under u independent random keys (or keys derived by hkdf::expand from one random secret), an adaptive multi-user attack with a forgery attempts of at most n blocks each, s blocks encrypted with AES altogether and at most B under each single key succeeds with at most the advantage with which an explicit distinguisher tells AES under u keys from u random permutations, plus a n / 2^128 + s (B-1) / 2^129; for confidentiality the terms are doubled. For one user this is the bound of C120.", "quantifier": "all three AES key sizes, both build modes, all numbers of users, all adaptive multi-user adversaries, all bounds a, n, s, B that they respect", "why_tests_cant": "a reduction over all attackers and a probability over the whole key space", "anchors": ["src/gcm.rs: Gcm", "src/aes.rs", "src/gcm.rs: AeadCipher", "src/hkdf.rs: expand"]}
{"id": "C126", "title": "The AEADs of the crate under a random key stay secure when every nonce is drawn at random", "statement": "If each encryption with AES-GCM or ChaCha20-Poly1305 of the crate under a random key uses a 12-byte nonce drawn at random, q of them, then any adaptive attack (which sees the nonces, and chooses everything in its decryption attempts) forges with at most the advantage with which an explicit distinguisher that draws the nonces itself tells AES from a random permutation (or the ChaCha20 block function from a random function), plus the bound of C120 for chosen different nonces, plus q(q-1)/2^97 for a nonce that comes up twice; the same for telling messages apart, with the advantages of two distinguishers. The distinguishers ask for as many blocks as the attack makes the code compute.", "quantifier": "all three AES key sizes and ChaCha20-Poly1305, both build modes, all adaptive adversaries, all numbers of encryptions, attempts and lengths within the limits of the ciphers", "why_tests_cant": "a probability over all keys and nonces and a reduction over all attackers", "anchors": ["src/gcm.rs: Gcm", "src/poly1305.rs: ChaCha20Poly1305", "src/gcm.rs: AeadCipher"]}
{"id": "C127", "title": "Whether a call panics depends on lengths, never on secrets", "statement": "In both build modes, whether a call panics is determined by the lengths of its arguments: encrypting with any AEAD of the crate, hashing, HMAC (computing and verifying), HKDF extract and expand, creating and using a ChaCha20 stream (with caught panics), X25519, Ed25519 key generation and signing. So a panic reveals nothing about keys, messages and derived secrets. The same holds for AEAD decryption of ciphertexts of at most 2^36-64 bytes or without overflow checks (also the tag does not matter), otherwise the outcome is determined by the lengths and by whether the tag is right; and for ed25519::verify, except for messages of 2^61-64 bytes and more with overflow checks, where it also matters whether signature and key are well-formed.", "quantifier": "all arguments of every length below 2^64, both build modes, all pairs of argument lists with the same lengths", "why_tests_cant": "a relation between all pairs of calls", "anchors": ["src/gcm.rs", "src/poly1305.rs", "src/chacha20.rs", "src/sha2.rs", "src/hmac.rs", "src/hkdf.rs", "src/curve25519.rs", "src/ed25519.rs", "src/util.rs"]}
{"id": "C128", "title": "Forging under one of many Ed25519 keys is about as hard as finding one discrete logarithm", "statement": "Replace SHA-512 by a random function H and let u signers have random independent secret keys. A forger sees all u public keys, may call H q times, may ask any of the signers for s signatures altogether, may get the secret keys of any users at any time, and chooses under which of the other keys it forges. If with probability e it ends with a signature that verify accepts under one of the keys of users whose secret key it did not get, and that this user did not hand out for that message (not even up to multiples of the group order in the second half), then an explicit extractor (which picks a user, makes the keys of the others itself and runs the forger twice) finds the logarithm of a random public key with a probability p such that (e/u - d)^2 <= Q (p + 2^-252), where Q = u + q + 2 s and d = ((s+1)(Q+s+1)+1)/2^252, unless e/u < d. In particular a signature of one user cannot be turned into one of another, also not by the other users together.", "quantifier": "both build modes, all numbers of users, all adaptive forgers within q, s and any message length limit, over the random choice of H and of the keys", "why_tests_cant": "a reduction over all adaptive forgers and a probability over all keys and hash functions", "anchors": ["src/ed25519.rs: gen_pk, sign, verify", "src/sha2.rs: Sha512"]}
{"id": "C129", "title": "A fresh key makes the X25519 secret unpredictable for the other side, and public keys do not repeat", "statement": "Let the secret key be random. Whatever public key the other side presents (before it has seen ours), on the curve or on the twist, each nonzero shared secret has probability at most 2^-250; so the other side can fix the secret only to zero, with a key of small order. Each value of our public key has probability at most 2^-250. Among n random secret keys two have the same X25519 public key, or the same secret with one peer whose key is not of small order, with probability at most n(n-1)/2^251. The bounds are sharp up to a factor of two (every possible secret has probability at least 2^-251). Ed25519: with SHA-512 replaced by a random function, two of n public keys coincide with probability at most n(n-1)/2 (2^-251 + 2^-256).", "quantifier": "all public keys of the peer, all values of the secret, all numbers of keys, both build modes; probability over the secret keys", "why_tests_cant": "a statement about the distribution over all 2^256 secret keys, for all 2^256 public keys of the peer", "anchors": ["src/curve25519.rs: dh, gen_pk", "src/ed25519.rs: gen_pk"]}
{"id": "C130", "title": "HMAC of the crate with many keys cannot be forged if the SHA-2 compression function is pseudorandom (standard model)", "statement": "u users have random independent HMAC keys of at most one block. An attacker that has q tags computed or verified by users of its choice, t of them verified, gets some user to accept a tag for a message whose tag that user was not asked for with probability at most u (t/256^size + q(q-1)/2 d) plus the sum over the users of the average advantages of the two explicit tests of C122 for the attackers against one user that answer for the other users themselves, where d bounds the probability that two texts collide in the inner hash; so with at most u (t/256^size + q(q-1)/2 d + 2 e) if no such test has an advantage of more than e. A tag of one user presented to another counts as a forgery.", "quantifier": "all four hash functions, both build modes, all key lengths up to a block, all numbers of users, all adaptive attackers", "why_tests_cant": "a reduction over all adaptive attackers and a probability over all keys", "anchors": ["src/hmac.rs: Hmac, verify", "src/sha2.rs"]}
{"id": "C131", "title": "Reading raw ChaCha20 streams of the crate under a random key means breaking the ChaCha20 block function, with the distinguisher written out", "statement": "An attacker opens ChaCha20 streams of the crate under nonces of its choice (each nonce once), sends one of two messages of equal length through them in any interleaving, each call depending on all earlier outputs, and guesses which messages were sent. Under a random key its guesses differ by at most the sum of the advantages with which two written-out programs, one for each side, tell the ChaCha20 block function under a random key from a random function. Those programs run the attack, and ask for at most one block for each 64 bytes sent plus one for each call; on the block function of a key their verdict is exactly the attacker's guess against the crate's code.", "quantifier": "all adaptive attackers, any number of streams and calls, messages up to 2^38 bytes per stream, both build modes", "why_tests_cant": "a reduction over all adaptive attackers and a probability over all keys", "anchors": ["src/chacha20.rs: Stream, encrypt, decrypt, new", "src/chacha20.rs: ChaCha20"]}
{"id": "C132", "title": "Numbered records arrive in order or not at all", "statement": "A protocol has u one-way links (two peers that talk in both directions have two), each with its own AES-128/192/256-GCM or ChaCha20-Poly1305 key. The sender of a link encrypts its i-th record with the number i as 12-byte nonce; the receiver decrypts what the network gives it with the number of records it accepted so far. The network belongs to an attacker that also chooses, step by step, what is sent. Then at every time every receiver holds exactly the first records sent over its own link, in order: nothing altered, replayed, reordered, dropped from the middle, reflected or moved to another link. For random keys the exception has at most the probability with which one explicit test, that asks for no more blocks than the records make the code compute, tells the block function under random keys from random functions, plus a*n/2^128 for GCM or a*1480n/2^106 for ChaCha20-Poly1305, for a delivered records of at most n blocks; the same with keys that HKDF derives from one secret, plus the bound for the derivation. What the attacker sees tells it which of two messages are sent only with such a probability. A record that reaches the receiver in its turn is always accepted and gives the message back.", "quantifier": "all numbers of links, all adaptive attackers, all data and messages, all random keys, AES-128/192/256-GCM and ChaCha20-Poly1305, both build modes", "why_tests_cant": "it is about every attack strategy and the whole key space, and about every history of sent and delivered records", "anchors": ["src/gcm.rs: AeadCipher, Gcm::encrypt, Gcm::decrypt", "src/poly1305.rs: ChaCha20Poly1305::encrypt, decrypt", "src/hkdf.rs: expand"]}
{"id": "C133", "title": "A whole protocol: records under keys from X25519 and HKDF arrive in order and stay secret", "statement": "Two parties with random secret keys exchange X25519 public keys (an attacker sees both, and cannot alter them), apply hkdf::extract to the shared secret and hkdf::expand once for each of u one-way links, with different contexts, and carry numbered records over the links with AES-128/192/256-GCM or ChaCha20-Poly1305. Nothing panics and both get the same keys. The network belongs to the attacker, which also chooses what is sent and evaluates the compression function of SHA-2, replaced by a random one, p times. The probability that some receiver ever holds anything but the first records sent over its link, in order, is at most: the probability with which the attacker, given only the public keys and links with independent random keys, evaluates the compression function on the shared secret (at most p times the probability with which an explicit program computes the shared secret from the two public keys), plus at most 5(p+4c+3)^2/2^bits, where c is the number of blocks that expand compresses, plus the advantage of one explicit distinguisher, which does the key exchange itself and asks for no more blocks than the records make the code compute, against AES or the ChaCha20 block function under u random keys, plus a*n/2^128 or a*1480n/2^106. The attacker can tell which of two messages are sent only with the sum of two such terms. Against random permutations the AES advantages grow by at most s(B-1)/2^129.", "quantifier": "all four hash functions, AES-128/192/256-GCM and ChaCha20-Poly1305, all numbers of links, all different contexts, all salts up to a block, all adaptive attackers, both build modes", "why_tests_cant": "it is about every attack strategy against the composition of key exchange, key derivation and encryption, over all keys and every history of records", "anchors": ["src/curve25519.rs: gen_pk, dh", "src/hkdf.rs: extract, expand", "src/gcm.rs: AeadCipher, Gcm::encrypt, Gcm::decrypt", "src/poly1305.rs: ChaCha20Poly1305::encrypt, decrypt"]}
{"id": "C134", "title": "A signed key exchange: both parties agree on the keys, and records arrive in order and stay secret, when the attacker owns the network from the start", "statement": "Two parties know each other's Ed25519 public keys. Each makes an X25519 key pair, sends the public key, signs its own public key followed by the one it gets, and accepts when verify accepts, under the other's signature key, a signature for the key it got followed by its own. Then it derives the keys of u one-way links as in C133 and carries records with AES-128/192/256-GCM or ChaCha20-Poly1305. When the network delivers everything, nothing panics, both accept and have the same keys. Now an attacker knows the four public keys and owns the network: it may hand each party any public key and any signatures, choose what is sent and hand over any records; and once both parties have accepted it gets both secret signature keys if it asks (forward secrecy). SHA-512 in the signatures and the compression function of the key derivation are random functions; the attacker calls the first and hands over signatures at most q times together, and evaluates the second p times. Let e be the probability that some party accepts although the parties have not got each other's public keys. With Q = q + 6 and d = (3(Q+3)+1)/2^252, either e/2 < d or (e/2 - d)^2 <= Q (l + 2^-252), where l is the chance of an explicit program to find the discrete logarithm of a random Ed25519 public key. The probability that a receiver ever holds anything but the first records sent over its link, in order, is at most e plus the bound of C133 for explicit attackers on the links, which cost no more than the attack; the same for telling which of two messages are sent, with twice these terms.", "quantifier": "all four hash functions in the key derivation, AES-128/192/256-GCM and ChaCha20-Poly1305, all numbers of links in both directions, all different contexts, all salts up to a block, all adaptive attackers that own the network, both build modes", "why_tests_cant": "it is about every attack strategy against the composition of signatures, key exchange, key derivation and encryption, over all keys and every order of messages on the network", "anchors": ["src/ed25519.rs: gen_pk, sign, verify", "src/curve25519.rs: gen_pk, dh", "src/hkdf.rs: extract, expand", "src/gcm.rs: AeadCipher, Gcm::encrypt, Gcm::decrypt", "src/poly1305.rs: ChaCha20Poly1305::encrypt, decrypt"]}
{"id": "C135", "title": "Signed key exchanges in a network of many users: whoever accepts has the right partner, and the same secret", "statement": "Any number n of users have Ed25519 keys. To talk to the owner of a signature key, a user opens a session in one of two roles with an X25519 key pair, sends the public key, signs role, own public key, the public key it gets and the peer's signature key, and accepts when verify accepts, under the peer's key, a signature for the other role, the public key it got, its own and its own signature key. When the network delivers everything, nothing panics, both sides accept and compute the same secret with dh. Now an attacker owns the network, lets users open any number of sessions with each other or with signature keys of its own making, even chooses all secret keys of the exchanges, and takes over users at any time (it gets their secret signature keys). SHA-512 in the signatures is a random function; the attacker calls it and hands over signatures at most q times together, and hands over public keys at most s times. Let e be the probability that at some time a session accepts, its peer is a user not taken over so far, and that user has no session that matches: in the other role, meant for the first user, each with the public key of the other, and both with the same secret from dh. With Q = n + q + 2 s and d = ((s+1)(Q+s+1)+1)/2^252, either e/n < d or (e/n - d)^2 <= Q (l + 2^-252), where l is the chance of an explicit program to find the discrete logarithm of a random Ed25519 public key.", "quantifier": "all numbers of users and sessions, all orders of messages, all adaptive attackers that own the network and take over users, both build modes", "why_tests_cant": "it is about every interleaving of any number of sessions under every attack strategy, and a probability over all keys and hash functions", "anchors": ["src/ed25519.rs: gen_pk, sign, verify", "src/curve25519.rs: gen_pk, dh"]}
{"id": "C136", "title": "Forging Ed25519 signatures is as hard as the hardest discrete logarithm", "statement": "C103, C114 and C128 turn a forger into a program that finds the logarithm of a random public key. Public keys have clamped logarithms; this is compared to the usual problem. For every program D that looks for logarithms of multiples of the base point B, its chance for a random public key of gen_pk (a random digest, clamped) is at most L / 2^251 <= 2 + 2^-126 times its chance p for a random multiple of B; and the program that adds a random multiple of B first finds the logarithm of every single multiple of B with the same chance p. So with e the chance of a forger in the sense of C114 and any multiple A of B, either e < d or (e - d)^2 <= q ((2 + 2^-126) p + 2^-252), where p is the chance that an explicit program finds the logarithm of A; and likewise for many signers (C128) and for the attacks of C134 and C135.", "quantifier": "all programs that look for logarithms, all forgers, all multiples of the base point, all numbers of signers, both build modes", "why_tests_cant": "it is about every forger and a probability over all keys and hash functions", "anchors": ["src/ed25519.rs: gen_pk, sign, verify"]}
{"id": "C137", "title": "Every X25519 exchange is as hard to break as a random one", "statement": "Take any program D that is given two public keys and says what their shared secret is. If it is right with probability p for the public keys of gen_pk for random secret keys, then the program that multiplies both public keys by random numbers from 1 to L-1 first (X25519 without clamping), calls D, and divides the result, is right with probability at least p / (4 + 2^-123) for every two secret keys: there are no public keys of gen_pk that are better protected than others. For random nonzero multiples of the base point in place of clamped ones the factor is 1, and clamping accounts for at most ((L-1)/2^251)^2. So the chance of an attack on a tunnel (C133) to come across the shared secret is at most p' (4 + 2^-123) times the chance of an explicit program to find the shared secret of any two given secret keys from their public keys, for p' evaluations of the compression function.", "quantifier": "all programs that look for shared secrets, all pairs of secret keys, all attacks on tunnels, both build modes", "why_tests_cant": "it is about every program and all pairs of keys, and a probability over all keys", "anchors": ["src/curve25519.rs: gen_pk, dh"]}
{"id": "C138", "title": "SHA-2 is a block cipher in Davies-Meyer mode, and collisions and preimages are hard to find when this cipher is random", "statement": "For each message block, what the code of src/sha2.rs adds to the chaining value is a permutation of it, so each block leaves exactly one chaining value as it is: the compression function can be told from a random function. When the rounds are replaced by a uniformly random permutation for each block, an attacker that computes permutations and inverse permutations at most p times, adaptively, finds two different messages of at most b blocks with the same digest with probability at most (p+2b)(p+2b+1) / 256^size, a message whose digest is one of t given ones with probability at most 2(p+b)t / 256^size, and a second message with the digest of a given message of b' blocks with probability at most 2(p+b+b')(b'+1) / 256^size. The crate's own hash functions are those for one choice of the permutations.", "quantifier": "all attackers with p queries in both directions, all message lengths below 2^61, all four hash functions, all blocks and chaining values, both build modes", "why_tests_cant": "it is about every attacker and a probability over all families of permutations of up to 2^512 chaining values; a permutation cannot be recognised from samples", "anchors": ["src/sha2.rs: process, sha224, sha256, sha384, sha512"]}
{"id": "C139", "title": "ChaCha20-Poly1305 resists attackers who can compute the rounds of ChaCha20 and their inverse, when the rounds are a random permutation", "statement": "The 20 rounds of the ChaCha20 code, which have no key, are a permutation of the 2^512 states. When they are replaced by a uniformly random permutation, and everything else (how key, counter and nonce are put into the state, the addition of the state at the end, the authenticated cipher) is the code, then for a random key an attacker that applies the permutation or its inverse at most p times, adaptively, and makes calls that need at most s blocks of key stream, with at most a decryptions of at most n blocks of 16 bytes, forges with probability at most 1480 a n / 2^106 + p(1+s)/2^256 + s^2/2^512, and tells which of two messages are encrypted with at most twice that advantage. The blocks of key stream themselves are told from random ones with advantage at most p(1+s)/2^256 + s^2/2^512. The crate's own cipher is the one for one choice of the permutation.", "quantifier": "all adaptive attackers with p uses of the permutation in both directions, all nonces, data, messages and buffers, n up to 2^34-16, both build modes", "why_tests_cant": "it is about every attacker and a probability over all keys and all permutations of 2^512 states", "anchors": ["src/chacha20.rs: setup_state, block, transform_state, inner_block, quarter_round, serialize_block", "src/poly1305.rs: ChaCha20Poly1305::encrypt, decrypt"]}
{"id": "C140", "title": "Trying keys: what an attacker who can compute the block cipher gains against AES-GCM with many users", "statement": "AES under a key is a permutation of the blocks. When AES is replaced by a uniformly random block cipher (for each key a random permutation), which the attacker may compute in both directions under keys of its choice at most p times, adaptively, and u users have independent random keys for GCM as the crate implements it, then an attack with at most a forgery attempts, n blocks in each call, s blocks enciphered altogether and B for each single user makes some user accept a forgery with probability at most a n/2^128 + s(B-1)/2^129 + (u p + u(u-1)/2)/2^(key bits); telling which of two messages are encrypted is bounded by twice that. Trying the right key forges with one computation and one attempt, so trying one key succeeds with probability at least 1/2^(key bits). The crate's AES-GCM is the one for one choice of the cipher.", "quantifier": "all numbers of users, all adaptive attackers with p computations of the cipher in both directions, all nonces, data, messages and buffers, n up to 2^32-3, three key sizes, both build modes", "why_tests_cant": "it is about every attacker and a probability over all keys and all block ciphers", "anchors": ["src/aes.rs: Aes128, Aes192, Aes256", "src/gcm.rs: Gcm::encrypt, decrypt"]}
{"id": "C141", "title": "ChaCha20-Poly1305 with many users resists attackers who can compute the rounds of ChaCha20 and their inverse, when the rounds are a random permutation", "statement": "The setting of C139 with u users who have independent random keys: the 20 rounds of ChaCha20 are replaced by a uniformly random permutation of the states that the attacker may apply in both directions at most p times, adaptively; key, counter and nonce enter the state, and the state is added at the end, as in the crate. The block functions of all users together differ from independent random functions by at most (u p + p s + u(u-1)/2)/2^256 + s^2/2^512 for anyone who asks for s blocks. An attack with at most a attempts of at most n blocks of 16 bytes whose calls need s blocks of key stream makes some user accept a forgery with probability at most 1480 a n/2^106 plus that, and tells which of two messages are encrypted with advantage at most twice the sum. Trying the right key forges with one use of the rounds and one attempt.", "quantifier": "all numbers of users, all adaptive attackers with p uses of the permutation in both directions, all nonces, data, messages and buffers, n up to 2^34-16, both build modes", "why_tests_cant": "it is about every attacker and a probability over all keys and all permutations of 512-bit states", "anchors": ["src/chacha20.rs: ChaCha20::new, block, transform_state", "src/poly1305.rs: encrypt, decrypt"]}
{"id": "C142", "title": "A ratchet made of hkdf::expand has forward secrecy: a stolen chain key says nothing about earlier record keys", "statement": "A connection keeps a chain key as long as a digest; in each epoch it derives with expand the next chain key under one context and a record key under another, and forgets the old chain key. The derivations never panic and all keys are determined by the first chain key; who knows a chain key knows all later keys (there is no recovery). But when the first chain key is random, the n record keys together with the last chain key differ from independent uniform keys, for every test, by at most the sum over the epochs of the advantages of tests against expand, plus n delta, where delta bounds collisions of two texts in the inner hash of HMAC. So an attacker who is given the last chain key and uses the record keys with ChaCha20-Poly1305 or AES-256-GCM of the crate forges a record with at most that plus the bound for independent random keys, and tells which of two messages are encrypted with at most twice that.", "quantifier": "all numbers of epochs, all pairs of different contexts, all hash functions, all tests of the keys and adaptive attackers given the stolen key, both build modes", "why_tests_cant": "it is about every attacker, a probability over all keys and every number of epochs", "anchors": ["src/hkdf.rs: expand", "src/hmac.rs: Hmac", "src/poly1305.rs: ChaCha20Poly1305", "src/gcm.rs: Gcm"]}
{"id": "C143", "title": "Encryption that commits to the key, made of hkdf::expand and an AEAD", "statement": "An application derives from its key, with expand under two different contexts, a commitment that it sends along and the key of an AEAD; the receiver compares the commitment with its own before it decrypts. Nothing panics and the receiver gets the message. If ciphertexts with the same commitment are accepted under two keys of equal length (at most a block of the hash), whatever the nonces, data, ciphertexts and tags, the keys are equal or the texts hashed under the two keys are a collision of SHA-2; so a ciphertext has one meaning, unlike with the AEADs alone (C78, C118). And the commitment does not help an attacker: given it, an adaptive attacker on ChaCha20-Poly1305 or AES-256-GCM under the derived key forges with at most the advantages of a test of the two derived values, plus the probability of a collision in the inner hash, plus the bound for a random key, and reads with at most twice that.", "quantifier": "all keys, contexts, nonces, data, messages within the limits, all hashes and AEADs, all pairs of builds, all adaptive attackers", "why_tests_cant": "it is about all pairs of keys and ciphertexts, and a probability over all keys against every attacker", "anchors": ["src/hkdf.rs: expand", "src/poly1305.rs: ChaCha20Poly1305", "src/gcm.rs: Gcm"]}
{"id": "C144", "title": "A raw ChaCha20 stream followed by HMAC is an authenticated cipher", "statement": "An application encrypts with Stream and then authenticates nonce, length of the data, data and ciphertext with HMAC of the crate under an independent key; before it decrypts it calls hmac::verify. Within the limits nothing panics and decryption gives the message back, in any builds. When both keys are uniform, an adaptive attacker with q calls, a of them decryptions, makes the application accept what it did not send with probability at most a/256^size plus the bound of C122 (advantages of explicit tests of the compression function, and q(q-1)/2 times the probability of a collision in the inner hash), and it tells which of two messages are encrypted with at most the advantages of the two distinguishers of C131 between the ChaCha20 block function and a random function, plus twice the former. So HMAC repairs exactly what C117 says a raw stream lacks.", "quantifier": "all adaptive attackers, all four hashes, all key lengths up to a block of the hash, all nonces, data and messages with together at most 2^38 bytes per call, both build modes", "why_tests_cant": "it is about every attacker and a probability over all keys", "anchors": ["src/chacha20.rs: Stream::new, encrypt, decrypt", "src/hmac.rs: verify, Hmac"]}
{"id": "C145", "title": "The ChaCha20 stream is a pseudorandom generator, and one can build a key-erasing generator of it", "statement": "Reading n bytes, n at most 2^38, of Stream::new(key, nonce) never panics and gives the same bytes in all builds. For a uniform key, the bytes of the streams of any distinct nonces look to every test like independent uniform bytes, up to the advantage of a distinguisher of ceil(n/64) questions per stream between the ChaCha20 block function and a random function. When an application reads 32 + r bytes for each request, keeps the first 32 as its next key, forgets the old one and returns the rest, then the first key determines everything, and all the outputs together with the key left at the end look like independent uniform bytes, up to a sum of one such advantage per request: who steals the key learns nothing about earlier outputs.", "quantifier": "all tests of the bytes, all numbers of streams with distinct nonces, all lengths up to 2^38 bytes, all numbers of requests, both build modes", "why_tests_cant": "it is about every test and a probability over all keys", "anchors": ["src/chacha20.rs: Stream::new, Iterator::next for Stream"]}
{"id": "C146", "title": "SHA-224 and SHA-384 digests of a secret cannot be extended when the compression function is random", "statement": "Complement of C94. A uniformly random function takes the place of the compression function in the hash code (everything else is the crate's). A secret has any distribution over strings of l bytes in which no string has probability above d. An attacker gets its digest, evaluates the compression function at most p times, and names a suffix of at most N bytes (b blocks) and a digest. It names the digest of the secret, its padding and the suffix with probability at most p/256^h + b(b+p+1)/256^size + (p+b)d + ((p+b)(p+b+1) + a(a+2(p+b)+1))/256^(size+h), where h is the number of bytes of the chaining value that the digest does not show (4 for SHA-224, 16 for SHA-384) and a the number of blocks of the secret. For SHA-256 and SHA-512, where h = 0, an explicit attacker with b evaluations always succeeds, whatever the compression function is.", "quantifier": "all attackers, all distributions of the secret, all lengths below 2^61 bytes in total, both build modes; the probability is over the secret and all compression functions", "why_tests_cant": "it is about every attacker and a probability over all secrets and compression functions", "anchors": ["src/sha2.rs: sha224, sha384, sha256, sha512, write_digest"]}
{"id": "C147", "title": "Encryption without nonces from HMAC and the raw ChaCha20 stream of the crate (SIV): safe however often data and messages repeat", "statement": "An application authenticates the length of the data, the data and the message with HMAC of the crate, and encrypts the message with a raw ChaCha20 stream of the crate whose nonce is the first 12 bytes of the tag, under an independent key; it opens by decrypting and verifying. Within the limits nothing panics, and what is wrapped can be opened by any build. An adaptive attacker with q calls, a of them to open, has something opened that was not wrapped with probability at most a/256^size plus the bound of C122 for a written-out attack on HMAC. It tells first from second messages of its pairs (no message repeated on its side with the same data) with at most the advantages of the two distinguishers of C131 for a written-out attack on raw streams, plus for each side the chance to forge, the bound of C122 for a written-out attack on HMAC that only asks for tags, and q(q-1)/2^97. Repeating a message with the same data gives the same result, and nothing else leaks.", "quantifier": "all four hash functions, both build modes, all key lengths up to a block, all adaptive attackers, data and message of a call up to 2^38 bytes together", "why_tests_cant": "it is about every adaptive attacker and a probability over all keys", "anchors": ["src/hmac.rs: hmac_sha224/256/384/512, Hmac, verify", "src/chacha20.rs: Stream::new, encrypt, decrypt, process"]}
{"id": "C148", "title": "Shortened HMAC tags are as hard to forge as their length says", "statement": "An application sends the first L bytes of a tag of HMAC of the crate, and accepts L bytes that equal the first L bytes of the tag it computes. For every adaptive attacker with q texts and t verifications under a random key of at most a block: its behaviour differs from that with a random function with values of L bytes by at most the bound of C122 for a written-out attack on whole tags, and it gets a shortened tag accepted for a text it had no tag for with probability at most t/256^L plus that bound. Conversely, whatever key and text, a random guess is accepted with probability exactly 1/256^L.", "quantifier": "all four hash functions, both build modes, all L up to the digest size, all key lengths up to a block, all adaptive attackers, all text lengths up to 2^61 - block", "why_tests_cant": "it is about every adaptive attacker and a probability over all keys", "anchors": ["src/hmac.rs: hmac_sha224/256/384/512, Hmac::tag, Tag"]}
{"id": "C149", "title": "Ciphertexts and tags of the authenticated ciphers look like random bytes, and everything else is rejected", "statement": "Compare AES-GCM or ChaCha20-Poly1305 of the crate under a random key with the ideal cipher: an encryption answers with fresh random bytes, as many as the message has plus a tag of 16, without looking at message or data, and every decryption of something that no encryption returned leaves the buffer alone and answers false. An adaptive attacker with fresh nonces, a decryptions and n blocks of 16 bytes per call tells the two apart with at most the advantage of a written-out distinguisher for the ChaCha20 block function plus 1480 a n / 2^106 or, for AES-GCM with s AES calls, the advantage of a written-out distinguisher for AES plus a n / 2^128 + s (s-1) / 2^129.", "quantifier": "all three AES key sizes, both build modes, all adaptive attackers, all a and s, all n up to 2^34-16 (ChaCha20-Poly1305) or 2^32-3 (AES-GCM)", "why_tests_cant": "it is about every adaptive attacker and a probability over all keys", "anchors": ["src/gcm.rs: Gcm::encrypt, Gcm::decrypt", "src/aes.rs: Aes128, Aes192, Aes256", "src/poly1305.rs: ChaCha20Poly1305::encrypt, decrypt", "src/chacha20.rs: ChaCha20::block"]}
{"id": "C150", "title": "Ciphertexts show neither the message nor which user's key made them", "statement": "Each of u users has an independent random key of AES-GCM or ChaCha20-Poly1305. For each encryption an adaptive attacker names two users and two messages of equal length, and a nonce that is new for both; always the first message is encrypted under the key of the first user, or always the second under the key of the second. The attacker also calls decrypt of any user a times on anything not sent by or for this user. If written-out distinguishers, that ask for no more blocks than the attack, have advantage at most eps against the block function, the attacker learns which of the two worlds it is in with advantage at most 2u(eps + 1480 a n / 2^106) for ChaCha20-Poly1305 and 2u(eps + a n / 2^128 + s(s-1)/2^129) for AES-GCM. With equal messages this is privacy of the key, with equal users secrecy of the message for many users at once.", "quantifier": "all numbers of users, all three AES key sizes, both build modes, all adaptive attackers, all a and s, all n up to 2^34-16 (ChaCha20-Poly1305) or 2^32-3 (AES-GCM)", "why_tests_cant": "it is about every adaptive attacker on many users and a probability over all their keys", "anchors": ["src/poly1305.rs: ChaCha20Poly1305", "src/gcm.rs: AeadCipher, Gcm"]}
{"id": "C151", "title": "Shortened digests are as hard to attack as their length says when the compression function is random", "statement": "Keep only the first t bytes of a SHA-2 digest. If the compression function is a uniformly random function that the attacker can evaluate p times, the attacker finds two different messages of at most N bytes (b blocks) whose shortened digests agree with probability at most (p+2b)(p+2b+1)/256^t, a preimage of one of k given values with probability at most (p+b)k/256^t, and a second preimage of a given message of b' blocks with probability at most (p+b+b')(b'+1)/256^t.", "quantifier": "all four hash functions, both build modes, all t up to the digest size, all N below 2^61, all p, all adaptive attackers", "why_tests_cant": "it is about every attacker and a probability over all compression functions", "anchors": ["src/sha2.rs: sha224, sha256, sha384, sha512, update, pad, write_digest"]}
{"id": "C152", "title": "HMAC under a fresh random key is a commitment: it hides the message, can be opened, and binds", "statement": "Commit to a message by drawing a random key of a fixed length (at most a block) and publishing the HMAC tag; open by publishing key and message, checked with hmac::verify. Hiding: whatever function of the tag an onlooker computes, it tells two messages, even of different lengths, apart with at most the sum of the advantages of written-out tests of the SHA-2 compression function that ask two questions and one. Opening: hmac::verify accepts. Binding: two different openings (key, message) of one value with keys of one length give a collision of the hash, at the inner or the outer evaluation. The fixed key length matters: a key and the same key with a zero byte appended open the same commitments.", "quantifier": "all four hash functions, both build modes, all key lengths up to a block, all messages below 2^61 bytes less a block, all onlookers", "why_tests_cant": "hiding is about every onlooker and a probability over all keys; binding is about all pairs of openings", "anchors": ["src/hmac.rs: hmac_sha256, verify, Hmac"]}
{"id": "C153", "title": "HMAC and HKDF give different outputs for different inputs, also under keys the attacker chooses, when the compression function is random", "statement": "Let the compression function inside the crate's hash functions be uniformly random, and let an attacker evaluate it at most p times and then name two different pairs of a key (of one length, at most a block of the hash) and a message of at most N bytes. The probability that the crate's HMAC gives the two pairs the same tag is at most 2 q (q + 1) / 256^size with q = p + 2 b + 6, where b is the number of blocks of N bytes with padding. The same bound holds for opening one HMAC commitment (C152) in two ways with hmac::verify, for two inputs of hkdf::extract with the same output, for two keys and contexts for which hkdf::expand derives the same digest-size output, and for one commitment of the committing encryption of C143 that is accepted under two keys, with whatever AEAD.", "quantifier": "all attackers, adaptive, with any number p of evaluations, all four hash functions, all message and context lengths, both build modes on each side, all AEADs", "why_tests_cant": "the claim is a probability over all compression functions and ranges over all attack strategies", "anchors": ["src/hmac.rs: Hmac, verify", "src/hkdf.rs: extract, expand", "src/sha2.rs: HashFunction", "src/gcm.rs: AeadCipher"]}
{"id": "C154", "title": "A file encrypted in pieces is decrypted whole or not at all", "statement": "Encrypt a file in pieces under a random key used for this file only: the number of the piece is the 12-byte nonce, and one byte of associated data says whether the piece is the last. Pieces of at most 2^36 - 64 bytes are always encrypted and the receiver gets the file back. An attacker who sees the encrypted file and hands any other records to the receiver - fewer (truncation), more, reordered, repeated, or changed - has it accept only with the probability with which this attack tells AES or the ChaCha20 block function from a random one, plus the forgery bound. Nor does what it sees, including whether the receiver accepts other records, tell two files with the same piece lengths apart by more.", "quantifier": "all files of any number (up to 2^96) and lengths of pieces, all ways to make other records out of the encrypted file, all guesses, AES-GCM with the three key lengths and ChaCha20-Poly1305, both build modes", "why_tests_cant": "the statement is about every manipulation of the records and a probability over all keys", "anchors": ["src/gcm.rs: AeadCipher, Gcm", "src/poly1305.rs: ChaCha20Poly1305"]}
{"id": "C155", "title": "Hash trees made with a hash function of the crate stand for one list of items", "statement": "Build the hash trees of RFC 6962 with sha224, sha256, sha384 or sha512 (a leaf is the hash of the byte 0 and the item, an inner node the hash of the byte 1 and its two children). Every item has a membership proof that is accepted, and nothing panics. Two different lists of items with the same root, of equal or different lengths, contain a collision of the hash function among the texts that are hashed; and a membership proof that is accepted for an item that does not stand at the claimed place contains one too. When the compression function is random, an attacker who evaluates it p times finds two such lists, or such a proof, for at most n items of at most N bytes, with probability at most q(q+1) divided by the number of digests, where q is p plus (4n+4) times the number of blocks of a text of N + 2 digests + 1 bytes.", "quantifier": "every hash function of the crate, both build modes, every list of items of fewer than 2^61-1 bytes, every index, every proof, every attacker and every number of evaluations", "why_tests_cant": "ranges over all lists and all forged proofs, and over all attackers", "anchors": ["src/sha2.rs: sha224, sha256, sha384, sha512", "src/sha2.rs: HashFunction, Processor512, Processor256"]}
{"id": "C156", "title": "Sealed boxes: public-key encryption made of x25519, HKDF and an authenticated cipher", "statement": "Seal a message for the holder of an X25519 public key: draw a one-time secret key, send its public key, agree on a secret with dh, derive a cipher key with hkdf extract and expand using both public keys as context, and encrypt with AES-GCM or ChaCha20-Poly1305 under the zero nonce. The holder of the secret key gets the message back and nothing panics. A box shows nothing but the length of its message, not even to an attacker who chooses the two messages after seeing the public key and has any other boxes opened: whoever tells which message was sealed, beyond the stated bound, tells agreed keys from random ones (asking for no more other agreements than he had boxes opened), or tells AES or the ChaCha20 block function from a random function. If the public keys are left out of the context this fails: a box whose public key has its top bit flipped is a different box and is opened as the original one. Nothing is claimed about who sent a box.", "quantifier": "every hash function of the crate, every cipher of the crate, both build modes, all secret keys, all messages and data, every adaptive attacker", "why_tests_cant": "ranges over all adaptive attackers and all keys; the bound is a probability over the keys", "anchors": ["src/curve25519.rs: gen_pk, dh", "src/hkdf.rs: extract, expand", "src/gcm.rs: GcmBlockCipher", "src/poly1305.rs: ChaCha20Poly1305"]}
{"id": "C157", "title": "Logs that only grow: proofs that a list begins with an earlier list", "statement": "With the hash trees of C155, made with sha224, sha256, sha384 or sha512, the holder of a growing list can prove that it begins with an earlier list (consistency proofs of RFC 6962): for every number of first items, at least one, there is a proof that is accepted for the hashes of the two lists, and nothing panics. If a proof is accepted for the hashes of two lists of which the second does not begin with the first, the texts that are hashed for the two lists and the proof contain a collision of the hash function. When the compression function is random, an attacker who evaluates it p times finds two such lists, of at most n items of at most N bytes, and such a proof with probability at most q(q+1) divided by the number of digests, where q is p plus (6n+4) times the number of blocks of a text of N + 2 digests + 1 bytes.", "quantifier": "every hash function of the crate, both build modes, all lists of items of fewer than 2^61-1 bytes, every number of first items, every proof, every attacker and every number of evaluations", "why_tests_cant": "ranges over all pairs of lists and all forged proofs, and over all attackers", "anchors": ["src/sha2.rs: sha224, sha256, sha384, sha512", "src/sha2.rs: HashFunction, Processor"]}
{"id": "C158", "title": "Many sealed boxes for one receiver", "statement": "Seal any number q of messages for one receiver as in C156, each with a fresh one-time key. The receiver's boxes show nothing but the lengths of their messages, not even to an attacker who knows the public key, chooses each pair of messages of the same length after seeing the boxes before, and has any boxes opened in between other than those he got: telling whether all first or all second messages were sealed succeeds with an advantage of at most q times the bound of C156 for one box, for explicit attackers on one box (they make the other boxes themselves, since anyone can seal) that have no more boxes opened.", "quantifier": "every number of boxes, every hash function of the crate, every cipher of the crate, both build modes, every adaptive attacker", "why_tests_cant": "ranges over all adaptive attackers and all keys; the bound is a probability over the keys", "anchors": ["src/curve25519.rs: gen_pk, dh", "src/hkdf.rs: extract, expand", "src/gcm.rs: GcmBlockCipher", "src/poly1305.rs: ChaCha20Poly1305"]}
{"id": "C159", "title": "Two layers of encryption are as secure as the better cipher", "statement": "A caller that does not want to depend on one cipher encrypts with one AEAD of the crate, and encrypts ciphertext and tag again with another one, under an independent key and with the same nonce and data. Within the limits nothing panics, the outer ciphertext is 16 bytes longer than the message, and decryption gives the message; decryption accepts nothing but what encryption makes of its result. For AES-GCM inside ChaCha20-Poly1305 and for the other order, and random keys, an adaptive attacker forges, or tells which of two messages were encrypted, with a chance that is bounded twice: as in C120 by the advantage of an explicit distinguisher for AES, whatever ChaCha20 is, and by that of an explicit distinguisher for the ChaCha20 block function, whatever AES is. In particular another outer ciphertext for a genuine inner one is no way around the inner cipher.", "quantifier": "all pairs of AEADs (round trip, acceptance), AES-128/192/256 with ChaCha20-Poly1305 in both orders (security), both build modes, all keys, nonces, data, messages, ciphertexts, tags, and all adaptive attackers of any number of calls", "why_tests_cant": "ranges over all adaptive attackers and all keys; the bounds are probabilities over both keys", "anchors": ["src/gcm.rs: AeadCipher, GcmBlockCipher", "src/poly1305.rs: ChaCha20Poly1305", "src/aes.rs", "src/chacha20.rs"]}
{"id": "C160", "title": "Keys from an X25519 exchange together with a pre-shared key stand as long as one of the two is secret", "statement": "Both parties apply hkdf::extract to the X25519 shared secret followed by a key they already share, and derive keys with hkdf::expand for contexts. They get the same keys. When the SHA-2 compression function behaves like a random function: (1) with a uniformly random pre-shared key of n bytes, an attacker who knows both secret keys of the exchange, evaluates the compression function at most p times and has keys derived for contexts of its choice, tells them from the values of a random function with an advantage of at most p/256^n plus a tiny error - there is no condition on X25519; (2) the same when the attacker takes part in the exchange with any public key, also of small order, and knows the result of dh; (3) for every pre-shared key, even one known to the attacker, the keys look random unless the attacker, knowing the public keys only, evaluates the compression function on a block that starts with the shared secret.", "quantifier": "every SHA-2 variant and build mode, all salts up to a block, all lengths of pre-shared keys that fit into one block with the secret, all public keys, all adaptive attackers with any numbers of evaluations and contexts", "why_tests_cant": "ranges over all adaptive attackers; the bounds are probabilities over keys and compression functions", "anchors": ["src/curve25519.rs: gen_pk, dh", "src/hkdf.rs: extract, expand", "src/hmac.rs: Hmac", "src/sha2.rs"]}
{"id": "C161", "title": "Two hash functions, or two MACs with independent keys, at once are as secure as the better of the two", "statement": "A caller puts the digests of a message under two SHA-2 functions of the crate one after the other, or its tags under two HMACs with independent keys. (1) The digest is the two FIPS digests and a collision of it is a collision of both hash functions, with colliding calls of both compression functions. (2) Verification (each part with hmac::verify) accepts exactly the two RFC 2104 tags; if one double tag belongs to two messages, under whatever keys, both hash functions have collisions. (3) With random keys, an attacker who asks for double tags and has some verified forges with at most the probability that some attack forges the first HMAC alone, and at most the probability that some attack forges the second one alone; so it is enough that one of the two compression functions is pseudorandom, even if the other hash function is completely broken.", "quantifier": "every two SHA-2 variants, build modes, all messages below 2^61 bytes, all key lengths, all adaptive attackers with any numbers of tags and verifications", "why_tests_cant": "ranges over all messages, all colliding pairs and all adaptive attackers", "anchors": ["src/hmac.rs: Hmac, verify, hmac_sha256, hmac_sha512", "src/sha2.rs: sha256, sha512, HashFunction"]}
{"id": "C162", "title": "Envelope encryption: data keys wrapped under a master key protect the data, and no foreign key is unwrapped", "statement": "A caller draws a random key for each of u files or users, encrypts their data under it, and stores each key encrypted (wrapped) under one random master key with an AEAD of the crate, each wrap with a nonce of its own. (1) Unwrapping gives the key back and the data can be decrypted. (2) An attacker who sees all wrapped keys and adaptively attacks the data of all users forges or reads with at most: the advantage of an attack on the wrapping cipher alone, in which only texts are encrypted, plus what it could do without the wrapped keys (zeros wrapped under a known key in their place). The bounds are written out, with explicit distinguishers against AES or the ChaCha20 block function, for AES-GCM wrapping AES-GCM keys and ChaCha20-Poly1305 wrapping ChaCha20-Poly1305 keys, and in general for any two ciphers. (3) An attacker who sees the wrapped keys, and may even know the data keys, presents a wrap that is none of these with its nonce and data: it is accepted with at most the chance to forge one message of the wrapping cipher.", "quantifier": "every number of users, all nonces that differ, all associated data, build modes and AES variants, all adaptive attackers whose choices depend on the wrapped keys, any numbers of calls", "why_tests_cant": "ranges over all adaptive attackers; the bounds are probabilities over master and data keys", "anchors": ["src/gcm.rs: AeadCipher, GcmBlockCipher", "src/poly1305.rs: ChaCha20Poly1305", "src/aes.rs", "src/chacha20.rs"]}
{"id": "C163", "title": "Challenge and response with HMAC lets in only who knows the key", "statement": "A server draws a random challenge of n bytes and lets in who answers with the HMAC of the challenge under a shared random key, checked with hmac::verify. (1) The client that knows the key gets in, with this answer and no other. (2) An attacker without the key has adaptively challenges of its choice answered and answers verified before the challenge is drawn (at most q texts, t of them verified) and afterwards (at most q' and t'), except that the client does not answer this very challenge. It is let in with probability at most q/256^n, the chance that the challenge was answered before, plus the chance to forge an HMAC of the crate; the latter is bounded by the advantage of explicit distinguishers against the SHA-2 compression function.", "quantifier": "every SHA-2 variant and build mode, all key lengths up to a block, all challenge lengths, all adaptive attackers and numbers of calls", "why_tests_cant": "ranges over all adaptive attackers; the bound is a probability over keys and challenges", "anchors": ["src/hmac.rs: hmac_sha256, verify", "src/sha2.rs"]}
