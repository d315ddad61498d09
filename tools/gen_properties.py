#!/usr/bin/env python3
"""Writes /verif/properties.jsonl (one JSON object per line)."""
import json, os
P = []
def p(id, title, statement, quantifier, why, *anchors):
    P.append(dict(id=id, title=title, statement=statement, quantifier=quantifier,
                  why_tests_cant=why, anchors=list(anchors)))

p("C01", "Tag comparison is exact equality",
  "util::verify_16(x, y) returns true exactly when y has 16 bytes and every byte equals the corresponding byte of x; it never panics, whatever the length of y. (The internal comparison used for HMAC tags of other lengths is 0 exactly on equal slices.)",
  "every 16-byte x and every byte slice y of every length",
  "2^128 values of x times unboundedly many slices; an accumulator that loses one bit pattern (for instance using & or + instead of |) passes any sample that does not hit it",
  "src/util.rs: verify_16, verify_inner")
p("C02", "SHA-2 digests follow FIPS 180-4",
  "sha224, sha256, sha384 and sha512 return the FIPS 180-4 digest of the message: padding, message schedule, compression and truncation as in the standard, for every message the 64-bit length counter supports.",
  "every byte message shorter than 2^61 bytes, all four functions",
  "padding has block-boundary cases at every length modulo the block size and at arbitrarily many blocks; test vectors sample a handful of lengths",
  "src/sha2.rs: sha512, sha384, sha256, sha224, impl_processor! (update, pad, process, write_digest)")
p("C03", "Hashing is independent of how the input is split",
  "Feeding a message to a SHA-2 object in any sequence of update calls (including empty ones) and then calling write_digest gives the same digest as hashing the concatenation in one call.",
  "every finite sequence of update calls with arbitrary slices, total length below 2^61 bytes, all four functions",
  "the buffer has a different case for every (offset, slice length) pair and the history is unbounded",
  "src/sha2.rs: HashFunction::update, HashFunction::write_digest")
p("C04", "write_digest panics exactly on a wrong output length",
  "write_digest on a SHA-2 object panics if output.len() differs from the digest size, and otherwise (message below the length limit) completes and overwrites the whole output.",
  "every reachable hash object and every output length",
  "needs every reachable internal state (buffer offset) and every output length",
  "src/sha2.rs: impl_function! write_digest")
p("C05", "Behaviour beyond the SHA-2 length counter",
  "A message of 2^61 bytes or more overflows the 64-bit bit counter: with overflow checks finishing the hash panics; without them the digest is the one whose encoded length is the bit length modulo 2^64 (so it is not the FIPS 180-4 digest, which allows longer messages for SHA-384/512).",
  "every message length from 2^61 up, both build modes",
  "messages of 2^61 bytes cannot be produced in a test",
  "src/sha2.rs: Processor512.len, impl_processor! (update, pad)")
p("C06", "HMAC follows RFC 2104",
  "hmac_sha224/256/384/512(key, message) = H((K' xor opad) || H((K' xor ipad) || message)) where K' is the key zero-padded to the block size, or the zero-padded digest of the key when the key is longer than a block.",
  "every key of every length and every message (below the hash length limit), all four hashes",
  "key lengths below, at and above the block size and all contents; unit tests fix a few keys",
  "src/hmac.rs: Hmac::new, Hmac::write_tag, keyed_hash_function, hmac_sha512")
p("C07", "HMAC is independent of how the message is split",
  "Any sequence of update calls on an Hmac followed by tag() gives the tag of the concatenated message.",
  "every key, every finite sequence of update slices, every supported hash",
  "unbounded histories of updates",
  "src/hmac.rs: Hmac::update, Hmac::tag")
p("C08", "hmac::verify accepts exactly the genuine tag",
  "hmac::verify(key, message, tag) returns true exactly when tag equals the full HMAC tag: every truncation, extension or altered tag is rejected, the genuine tag is accepted, and it does not panic.",
  "every key, message and candidate tag of every length",
  "the space of forged tags cannot be enumerated",
  "src/hmac.rs: verify", "src/util.rs: verify_inner")
p("C09", "HMAC key equivalence classes",
  "Two HMAC keys no longer than a block that differ only by trailing zero bytes give identical tags on every message, and a key longer than a block gives the same tags as its digest used as key.",
  "all keys and messages",
  "a universally quantified equivalence over all keys and messages",
  "src/hmac.rs: Hmac::new, keyed_hash_function")
p("C10", "HKDF-Extract",
  "hkdf::extract writes HMAC(salt, ikm) to prk and panics exactly when prk.len() is not the digest size.",
  "every salt, ikm and prk buffer",
  "unbounded inputs; panic condition over every buffer length",
  "src/hkdf.rs: extract")
p("C11", "HKDF-Expand follows RFC 5869",
  "hkdf::expand fills okm with the first okm.len() bytes of T(1)||T(2)||..., T(i) = HMAC(prk, T(i-1)||info||i), for every okm length for which it does not panic; without overflow checks it panics exactly when prk is shorter than a digest or okm longer than 255 digests, as documented.",
  "every prk, info, okm length, supported hash and build mode",
  "255 block-boundary cases times arbitrary prk/info; tests use three vectors",
  "src/hkdf.rs: expand")
p("C12", "HKDF-Expand outputs are prefixes of one another",
  "For the same prk and info, the okm for a shorter length is a prefix of the okm for a longer one.",
  "every prk, info and pair of lengths",
  "relates two runs over all lengths",
  "src/hkdf.rs: expand")
p("C13", "HKDF-Expand block counter overflow",
  "In builds with overflow checks expand panics exactly when okm.len() >= 254 digests (or prk is too short), although the documentation allows up to 255 digests: the documented guarantee is violated in that mode.",
  "every okm length, both build modes",
  "needs the exact boundary over all lengths in both build modes; the repository's tests only use short outputs",
  "src/hkdf.rs: expand ((1..).zip over u8)")
p("C14", "The arithmetic S-box is the AES S-box",
  "The composite-field S-box used by AES equals multiplicative inversion in GF(2^8) modulo x^8+x^4+x^3+x+1 followed by the FIPS 197 affine map, on every byte.",
  "all 256 byte values against the algebraic definition",
  "a test compares against another implementation's table; the property is agreement with the field-theoretic definition",
  "src/aes.rs: s_box, g256_newbasis, g256_inv")
p("C15", "AES encryption follows FIPS 197",
  "Aes128/192/256::new(key).permute(block) is the FIPS 197 cipher (key expansion, rounds, final round) on that key and block.",
  "every key of the right length and every 16-byte block",
  "2^128 blocks and up to 2^256 keys",
  "src/aes.rs: key_expansion, permute, shift_rows, mix_columns")
p("C16", "permute is a permutation",
  "For every key, permute is a bijection on 16-byte blocks.",
  "every key, all pairs of blocks",
  "injectivity quantifies over pairs from a 2^128 domain",
  "src/aes.rs: BlockCipher::permute")
p("C17", "AES key length check",
  "Aes128/192/256::new panics exactly when the key is not 16/24/32 bytes long.",
  "every key length", "all lengths", "src/aes.rs: key_expansion")
p("C18", "GHASH is polynomial evaluation in GF(2^128)",
  "The hash inside GCM is the evaluation at H of the polynomial whose coefficients are the zero-padded data blocks, the zero-padded ciphertext blocks and the two 64-bit bit lengths, in GF(2)[x]/(x^128+x^7+x^2+x+1).",
  "every hash key, associated data and ciphertext (lengths below 2^61 bytes)",
  "shift-and-reduce multiplication over 2^256 operand pairs and unboundedly many blocks",
  "src/ghash.rs: ghash, PolyFunction::process")
p("C19", "GCM encryption follows SP 800-38D (96-bit nonce)",
  "Gcm::encrypt outputs the GCTR encryption starting from inc32(J0) and the tag GHASH(data, ciphertext) xor E(J0), J0 = nonce||0^31||1.",
  "every block cipher, key, nonce, data and message within the documented bounds",
  "unbounded message and data lengths", "src/gcm.rs: Gcm::encrypt, Processor::process, Processor::tag")
p("C20", "GCM round trip",
  "If encrypt succeeds, decrypt with the same key, nonce, data and the returned tag returns true and restores the message.",
  "every block cipher (any deterministic block function), key, nonce, data, message",
  "all message lengths and contents, generic cipher", "src/gcm.rs: encrypt, decrypt")
p("C21", "GCM decrypt accepts exactly the right tag and releases nothing otherwise",
  "decrypt returns true exactly when tag equals the 16-byte tag encrypt would compute for that ciphertext, nonce and data; when it returns false the output buffer is left exactly as it was.",
  "every ciphertext, nonce, data, candidate tag (any length) and output buffer",
  "the space of tags and buffers; the tests say TODO for this", "src/gcm.rs: decrypt", "src/util.rs: verify_16")
p("C22", "GCM panic conditions",
  "Without overflow checks encrypt/decrypt panic exactly under the documented conditions (buffer length mismatch, nonce not 12 bytes, message not below 2^36-32 bytes, data not below 2^61 bytes). With overflow checks they additionally panic for the last few permitted lengths (more than 2^32-4 blocks).",
  "every combination of lengths, both build modes",
  "boundary lengths are about 64 GiB", "src/gcm.rs: check_bounds, process")
p("C23", "GCM never repeats a counter block",
  "For any permitted message the blocks fed to the cipher for the keystream are pairwise distinct and differ from the block that masks the tag; hence with AES the keystream blocks are pairwise distinct.",
  "every nonce and every message length permitted by the bounds check",
  "counter wrap-around only shows at 2^32 blocks", "src/gcm.rs: block, process, tag, check_bounds")
p("C24", "Authenticated encodings are unambiguous",
  "The block sequence authenticated by GHASH (and by Poly1305 in the AEAD) determines the pair (data, ciphertext): different pairs give different block sequences, so bytes cannot be moved between data and ciphertext or zero-padding exploited.",
  "all pairs of (data, ciphertext) with lengths below the 64-bit limits",
  "injectivity over all pairs of inputs", "src/ghash.rs: GHash::process, write_tag", "src/poly1305.rs: Poly1305::process, write_tag")
p("C25", "ChaCha20 stream bytes follow RFC 8439",
  "The i-th byte yielded by a Stream is byte i mod 64 of the RFC 8439 block for counter i div 64.",
  "every key, nonce and position below 2^38",
  "2^38 positions for 2^352 key/nonce pairs", "src/chacha20.rs: Stream::next, ChaCha20::block")
p("C26", "Stream encryption composes and inverts",
  "Encrypting a message in any sequence of pieces gives the same ciphertext as in one call, and decrypting with a fresh stream (in any other split) restores the message.",
  "every key, nonce and pair of partitions of every message up to 2^38 bytes",
  "histories of calls with arbitrary alignments", "src/chacha20.rs: Stream::encrypt, decrypt, process")
p("C27", "ChaCha20 stream counter overflow",
  "Requesting byte number 2^38 panics with overflow checks and, without them, yields the first byte of the stream again (keystream reuse with period 2^38).",
  "every key and nonce, both build modes, all positions",
  "256 GiB of iteration", "src/chacha20.rs: Stream::next")
p("C28", "ChaCha20 panic conditions",
  "Stream::new panics exactly when key.len() != 32 or nonce.len() != 12; encrypt/decrypt panic exactly when input.len() != output.len() (within the first 2^38 bytes).",
  "all lengths and reachable stream states", "all lengths and histories", "src/chacha20.rs: Stream::new, process")
p("C29", "Poly1305 tag equals the RFC 8439 polynomial",
  "The AEAD's one-time authenticator equals ((sum of padded 17-byte blocks times powers of the clamped r) mod 2^130-5 + s) mod 2^128, little-endian, for the padded data/ciphertext/lengths message.",
  "every 32-byte one-time key, data and ciphertext of every length",
  "carry and final-subtraction cases occur with probability about 2^-100, far beyond random testing", "src/poly1305.rs: PolyFunction (process, mulmod, squeeze, freeze, write_value)")
p("C30", "Poly1305 limb arithmetic never overflows",
  "No u32 addition or multiplication in the authenticator overflows, so builds with and without overflow checks agree and neither panics.",
  "every key and every sequence of blocks (unbounded)", "an invariant over unboundedly many blocks", "src/poly1305.rs: mulmod, squeeze, add, freeze")
p("C31", "ChaCha20-Poly1305 follows RFC 8439",
  "encrypt yields the RFC 8439 AEAD ciphertext (counter starting at 1) and tag (one-time key from block 0).",
  "every key, nonce, data and message within the RFC length limit", "unbounded lengths", "src/poly1305.rs: encrypt, process, tag, poly_key_gen")
p("C32", "ChaCha20-Poly1305 round trip",
  "decrypt of an encrypt result returns true and restores the message.",
  "every key, nonce, data, message", "all lengths and contents", "src/poly1305.rs: encrypt, decrypt")
p("C33", "ChaCha20-Poly1305 decrypt accepts exactly the right tag and releases nothing otherwise",
  "decrypt returns true exactly when the tag is the one encrypt computes for that ciphertext, nonce and data; when it returns false the output buffer is unchanged.",
  "every ciphertext, nonce, data, tag and buffer", "tag space; tests say TODO", "src/poly1305.rs: decrypt")
p("C34", "ChaCha20-Poly1305 has no message length check",
  "Up to 2^32-1 blocks the keystream counters are distinct and never 0. Beyond that, without overflow checks, the counter wraps to 0 and message bytes are encrypted with the block whose first half is the one-time authenticator key (the RFC forbids such messages; the code accepts them). With overflow checks, messages of 2^32-2 blocks or more panic.",
  "every message length, both build modes", "messages of 256 GiB", "src/poly1305.rs: process")
p("C35", "X25519 follows RFC 7748",
  "curve25519::dh(public_key, secret_key) (and gen_pk with base 9) equals the RFC 7748 X25519 function computed in exact arithmetic modulo 2^255-19; it never panics on 32-byte arguments in any build mode and panics on any other length.",
  "all 2^512 pairs of 32-byte arguments; all other lengths", "limb carries and overflow corner cases are unreachable by sampling", "src/curve25519.rs: scalarmult, gen_pk, dh, Fe")
p("C36", "X25519 computes scalar multiples on the curve",
  "The result of dh is the u-coordinate of the clamped scalar times any point with the given u-coordinate on v^2 = u^3+486662u^2+u (over an algebraic closure), 0 standing for the point at infinity.",
  "every scalar and every u (on the curve or its twist)", "group-theoretic statement for all points", "src/curve25519.rs: scalarmult, dh")
p("C37", "Diffie-Hellman agreement",
  "dh(gen_pk(a), b) = dh(gen_pk(b), a); more generally dh(dh(u, a), b) = dh(dh(u, b), a).",
  "all secret keys a, b and all u", "all pairs of keys", "src/curve25519.rs: gen_pk, dh")
p("C38", "X25519 ignores exactly the masked bits",
  "The output depends on the secret key only through its clamped value and on the public key only through its value modulo 2^255 reduced mod 2^255-19 (so non-canonical encodings and the top bit are accepted and ignored).",
  "all pairs of arguments", "relation between all pairs of inputs", "src/curve25519.rs: scalarmult, assign_from_bytes")
p("C39", "X25519 output is canonical",
  "The 32 output bytes always encode a number below 2^255-19.",
  "all inputs", "freeze corner cases have negligible probability", "src/curve25519.rs: write_bytes")
p("C40", "Small-order public keys give the all-zero secret",
  "dh returns 32 zero bytes, without any error, for every secret key when the public key has small order (u = 0, 1, -1 and the order-8 points); the function performs no contributory check.",
  "all secret keys", "all 2^256 secrets", "src/curve25519.rs: dh")
p("C41", "Ed25519 public keys follow RFC 8032",
  "ed25519::gen_pk(sk) is the encoding of [a]B, a the clamped first half of SHA-512(sk); panics exactly when sk is not 32 bytes.",
  "all secret keys", "2^256 keys; precomputed tables exercised at every digit", "src/ed25519.rs: gen_pk, from_scalarmult_base, select", "src/const_curve25519.rs: BASE")
p("C42", "Ed25519 signatures follow RFC 8032",
  "sign(message, sk) = encode([r]B) || encode((r + H(R||A||M) a) mod L), deterministically, with S < L.",
  "all messages and keys", "all inputs; scalar reduction corner cases", "src/ed25519.rs: sign, sc_reduce, sc_muladd")
p("C43", "Signatures verify",
  "verify(m, sign(m, sk), gen_pk(sk)) is true.",
  "all messages and keys", "all inputs", "src/ed25519.rs: sign, verify, gen_pk")
p("C44", "verify decides the cofactorless equation",
  "verify(m, sig, pk) is true exactly when sig has 64 bytes, S < 2^253, pk decodes to a curve point A, and the first 32 bytes of sig are the encoding of [S]B - [H(R||pk||m)]A.",
  "all messages, byte strings sig and 32-byte pk", "all forged inputs", "src/ed25519.rs: verify, from_double_scalarmult_vartime, slide, from_bytes_negate_vartime")
p("C45", "Ed25519 signatures are malleable",
  "verify does not reject S >= L: replacing S by S+L in a valid signature (when S+L < 2^253) gives another valid signature for the same message and key, so signatures are not unique.",
  "every valid signature", "algebraic relation over all signatures", "src/ed25519.rs: verify (check signature[63] & 224)")
p("C46", "verify rejects malformed input without panicking",
  "verify panics exactly when public_key.len() != 32; a signature of length other than 64, or with one of the three top bits of S set, or a public key that is not the encoding of a curve point, gives false.",
  "all byte strings", "all lengths and contents", "src/ed25519.rs: verify, from_bytes_negate_vartime")
p("C47", "Field arithmetic modulo 2^255-19 is exact and overflow-free",
  "Every field operation used by X25519 and Ed25519 (add, sub, mul, square, 121666-mul, invert, pow22523, load, store) returns a representative of the mathematical result and no i32/i64 operation in it overflows on the operands that can occur.",
  "all limb vectors within the operation's bounds, which hold in every execution", "limb products: 2^520 operand pairs, overflow at extremes only", "src/curve25519.rs: fe_mul!, fe_sq!, Fe")
p("C48", "Scalar arithmetic modulo L is exact and canonical",
  "The scalar reduction and multiply-add used by sign and verify return the canonical (below L) residue of the exact integer result, with no i64 overflow.",
  "all 64-byte inputs / all 32-byte operand triples", "2^512 inputs", "src/ed25519.rs: sc_reduce, sc_muladd")
p("C49", "Precomputed tables hold the right points",
  "BASE[i][j] is (j+1)*256^i*B and BI[j] is (2j+1)*B in the (y+x, y-x, 2dxy) form; D, D2, SQRTM1 are the curve constants.",
  "the whole finite table, against the group law", "tests exercise few entries and no group-theoretic statement", "src/const_curve25519.rs: BASE, BI, D, D2, SQRTM1")
p("C50", "Poly1305/GCM wrappers never release plaintext and encrypt preserves length",
  "encrypt of either AEAD returns a 16-byte tag and writes exactly input.len() bytes; the ciphertext xor message is independent of the message (depends only on key and nonce).",
  "all inputs", "relation over all pairs of messages", "src/gcm.rs: encrypt", "src/poly1305.rs: encrypt")
with open(os.path.join(os.path.dirname(__file__), "..", "properties.jsonl"), "w") as f:
    for x in P: f.write(json.dumps(x) + "\n")
print(len(P))
