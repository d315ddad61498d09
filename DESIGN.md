# Formal model of tbarrella/crypto-pure in Lean 4

## Layout (lean/Verif)

* `Basic.lean`            — machine words, byte strings, build modes, panics, endian helpers (shared vocabulary).
* `Spec/*.lean`           — small independent specifications (FIPS 180-4, RFC 2104, RFC 5869, FIPS 197, SP 800-38D,
                            RFC 8439, RFC 7748, RFC 8032, the Montgomery and Edwards groups). They never import a model.
* `Model/*.lean`          — function-by-function models of /repo/src, each definition citing file and lines.
* `Proofs/*.lean`         — helper lemmas.
* `Props/*.lean`          — the property theorems only (the ones listed in MANIFEST.json) with non-vacuity examples.
  Further ones are in `Props/Cases.lean` (the attackers of the examples, for the theorems of C110–C133 without one of their own) and `Props/Search.lean`
  (an attacker that finds the secret scalar by search: it meets the hypothesis "ε is at least δ" of C102, C103, C114, C128, C134, C135 with ε = 1).

## Modelling conventions

* `U8/U32/U64/U128` are `BitVec n`; slices and arrays are `List`; `usize` is 64-bit.
* A function that can panic returns `Option`; `none` is a panic (failed `assert!`, out-of-range slice, arithmetic
  overflow in a build with overflow checks). `&mut` parameters become results.
* `Mode` distinguishes builds with overflow checks (`debug`) from builds without (`release`). Every Rust `+ - *` that is
  not `wrapping_*` goes through a checked operation: out of range it is a panic in `debug` and wraps in `release`.
  Theorems quantify over the mode unless the property is about the difference.
* Signed limb arithmetic (`i32`, `i64`) is over `Int` with an explicit range check at every operation, `>>` is
  arithmetic shift (floor division by a power of two), `as` casts wrap.
* Loops are folds/structural recursion over the same index range.

## Plan per property

| Id | Model | Proof idea |
|----|-------|-----------|
| C01 | util.rs | fold of `acc ||| (x ^^^ y)` is 0 iff all pairs equal, induction |
| C02–C05 | sha2.rs, generic in the word size | invariant: state after updates = compression of all full blocks of the absorbed message, buffer prefix = remainder; padding case split; compression function proved equal to the FIPS recurrence |
| C06–C09 | hmac.rs generic in a hash that satisfies C03-type laws | invariant of hash objects lifted through the trait |
| C10–C13 | hkdf.rs generic in the hash | induction on output chunks; explicit model of `(1..)` over `u8` in both modes |
| C14–C17 | aes.rs | S-box by kernel evaluation on all 256 bytes against the algebraic definition; round functions against the FIPS matrix formulation; invertibility of every layer |
| C18 | ghash.rs | correspondence of shift/xor with multiplication by x in `(ZMod 2)[X]` modulo the GCM polynomial |
| C19–C24, C50 | gcm.rs generic in the block cipher | chunk-wise xor, involution, counter arithmetic |
| C25–C28 | chacha20.rs | stream state invariant in terms of the number of bytes consumed |
| C29–C34, C51 | poly1305.rs | radix-2^8 limb invariant, congruence mod 2^130-5, bounds for u32, final freeze |
| C35–C40, C47 | curve25519.rs | radix-2^25.5 limbs: range + congruence lemma per operation; ladder invariant against Mathlib's Weierstrass group over any field extension |
| C41–C46, C48, C49, C52, C53 | ed25519.rs, const_curve25519.rs | complete twisted Edwards group, projective formulas, signed digits, tables by kernel evaluation, point encoding |
| C54–C56 | curve25519.rs | orders of the curve and of its twist (see below), doubling polynomials |
| C57–C60 | ed25519.rs | order of the Edwards group, `L` prime |
| C61 | ghash.rs, gcm.rs | GF(2^128) is a field (order of x via the factorisation of 2^128-1); roots of the difference polynomial |
| C62 | poly1305.rs | 2^130-5 prime (Pocklington); the 17 possible errors of the final reduction; roots of the difference polynomial |
| C63, C64 | sha2.rs, hmac.rs, hkdf.rs | Merkle-Damgard induction over the calls of the compression function; padding injective |
| C65 | every public function | compositional refinement: each mode-dependent operation refines, each construct preserves it |
| C66–C71 | util.rs, aes.rs, ghash.rs, gcm.rs, chacha20.rs, poly1305.rs, sha2.rs, hmac.rs, hkdf.rs, curve25519.rs, ed25519.rs (without `verify`) | a second, recording version of the model (`Leak/`), shown to compute the same values; two runs on inputs of equal lengths record the same (relational proof by structure) |
| C72, C73 | curve25519.rs | C36/C54 group theory: clamped scalars are units modulo the large primes, so multiples by 8t agree iff multiples by 8 do |
| C74–C76 | ed25519.rs | C57 (the verification equation) with `L` prime and the order of the group |
| C77, C78 | gcm.rs, ghash.rs | C61 (roots of the difference polynomial); solving one linear equation over GF(2^128) |
| C79, C80 | gcm.rs, ghash.rs with the block cipher an arbitrary function | C79: the involution xoring message differences into the function; C80: double counting over xor-actions on the hash key (masks adapted) or on one mask, and C61 |
| C81, C82 | poly1305.rs with the block function an argument (equal to the model for ChaCha20) | C81: involution xoring message differences into the blocks with counter ≥ 1; C82: double counting over changes of r (s adapted so that the sent tag stays) or of s, with C62 and the 2^22 preimages of clamping |
| C83–C87 | Model/Effects.lean: every public method with a `&mut` argument a second time, with the contents of that argument (and of the object) after a panic | agreement of the two models on calls that return; induction over the counter loops for the bytes written before the panic; histories of calls with caught panics refined to a keystream position (C85) or to the list of accepted inputs (C87) |
| C88 | C35 and C41 with the isomorphism of Proofs/Edwards.lean between the Edwards and the Montgomery curve | the isomorphism is a homomorphism whose effect on coordinates is u = (1+y)/(1-y), and the ladder is scalar multiplication; a clamped multiple of the base point is not neutral since L is prime |
| C89, C90 | Spec/Game.lean: adversaries as trees of calls (each call may depend on all earlier answers), the game with refusal of used nonces and of replays, the fraction of keys for which it ends in a given way; the ciphers over a random block function as in C79–C82 | Proofs/Game.lean, for any cipher with the four facts of `Good`: counting keys along the fibres of each answer, by induction over the adversary; a game without forgery is a game in which decryption always rejects, and in that game both messages give equal counts; instances by C79–C82 |
| C91 | GCM over a block cipher object that holds a permutation; `Queries q f`: f is computable with q adaptive queries to a function | Proofs/Switch.lean: the PRP/PRF switching lemma, by induction over the queries, conditioning on the answers so far; a call of GCM looks at the block function in blocks + 2 points, so the game is such a computation; then C89 |
| C92 | as C29 | the accumulator is below 2^31 only for roots of 2^31 polynomials of degree n (Proofs/Poly1305Universal.lean); clamping maps at most 2^22 keys to one multiplier |
| C93 | `Stream::nth` (default method of core over `next`); rest as C25, C31 | induction over the number of skipped bytes; the keystream as one sequence of bytes |
| C94 | as C02; `Variant.extend`: the FIPS 180-4 hash computation started from the digest's words | the padded message is a whole number of blocks; the words of the digest are the chaining value |
| C95 | the trait as a record (Model/Sha2.lean); `Computes`: what the caller's implementation is assumed to do, observationally | the generic theorems of Proofs/Hmac.lean for the object with the build mode fixed; panics by computation |
| C96 | Gcm generic in a record of the trait's methods | the generic GCM lemmas instantiated with permute itself; CTR is an involution whatever the block function |
| C97 | Gcm generic in the cipher, GF(2^128) as a quotient ring | GHASH unfolded in the field; with h^k = 1 the two blocks enter symmetrically |
| C98 | as for C62 | round trip reduces the first half to C62; the second is arithmetic modulo 2^128 over C29's exact description of the tag |
| C99 | the trait as a record, its implementors as values | one lemma from (counter-mode involution, tag function, panic condition) to the contract; the exact descriptions of both AEADs supply its hypotheses |
| C100 | `expand` as in C11; RFC 5869 with HMAC under `prk` replaced by a function; uniformly random functions counted | `Props/HkdfPrf.lean`: the inputs end in the position and begin with a digest of fixed length, so they determine context and position; for given outputs the inputs are determined, so the functions are counted point by point |
| C101 | the application code `derive`, `send`, `receive` written with the model's public functions | `Props/Session.lean`: C37, C10, C11, C13, C99, C43 composed |
| C102 | `signWith`, `verifyWith`, `genPkWith` (Model/EdWith.lean): the code of src/ed25519.rs with the hash functions as parameters, proved equal to the model of the crate when they are SHA-512; forger, game and extractor (Spec/EdGame.lean), programs with random draws (Spec/Prog.lean) | Simulation of the signer without the key (Proofs/EdSim.lean: conditional counting over the functions consistent with the answers, bias of a digest modulo L, collisions of R), forking lemma by induction on the forger (Proofs/EdFork.lean), extraction from two accepting signatures with one R; Props/Ed25519Forge.lean |
| C103 | `genPkH`, `signH`: the code of src/ed25519.rs with one function for all hashes (Props/Ed25519Oracle.lean on top of Model/EdWith.lean); game, forger and extractor as in C102 | A bijection between one random function with a key and a digest with two independent random functions; the games agree unless the key or the secret prefix is asked, which is rare because what is asked does not depend on them; C102 for each key, averaged with Jensen's inequality |
| C104 | `Model/ShaWith.lean`: the code of src/sha2.rs with the compression function as a parameter; HMAC of Model/Hmac.lean over it; attackers and worlds in Spec/MacGame.lean | An injection on the samples (key, compression function, function for the tags) that carries the ideal world to the real one unless a tag's last compression was met before (Proofs/HmacIdeal.lean); the bad event by induction on the evaluations; in the ideal world a tag can only be guessed |
| C105 | `Hkdf.expand` over Model/ShaWith.lean; attackers and worlds in Spec/KdfGame.lean | An attacker on `expand` becomes an attacker on HMAC (C104); with a random function in place of HMAC the table of all outputs for all contexts is uniform (C100, equal fibres) |
| C106 | `Hkdf.extract`, `Hkdf.expand` over Model/ShaWith.lean; attackers in Spec/KdfGame.lean | An injection on the samples (secret, two compression functions, chaining value) that carries the ideal game to the real one unless the last compression of `extract` was met before (Proofs/ExtractIdeal.lean); the attacker can have met it only if it absorbed the whole secret, guessed a chaining value or found a collision; the attacker on `expand` under a known key as a sequence of evaluations; then C105 |
| C107 | `Hkdf.extract`, `Hkdf.expand` over Model/ShaWith.lean; attackers and their log of evaluated blocks in Spec/KdfGame.lean | The injection of C106 with attackers that depend on the sample; if the attacker met the only compression of the secret, then it was its own evaluation or the derived key has the same key block as the salt (the evaluations inside HMAC start from other states unless there is a collision); C105 for the outcome and for the log |
| C108 | `X25519.genPk`, `X25519.dh`, `Hkdf.extract`, `Hkdf.expand` over Model/ShaWith.lean | C37 (both parties agree, no panic) and C107 with the pair of secret keys as sample |
| C109 | `Sha2.wrapper` over Model/ShaWith.lean; attackers in Spec/KdfGame.lean (`Prober`) | The evaluations of the attacker followed by those of its messages as one adaptive tree; a union bound over the tree for repeating an earlier value (or hitting a fixed value); without a repetition the chaining values determine the blocks back to the initial value, and the padding is injective |
| C110 | `X25519`, `Hkdf` over `ShaWith`, `ChaChaPoly`, `Gcm`; attackers in Spec/ChannelGame.lean | C108 (the derived key is random unless the shared secret is hit) applied to the attacker with the cipher's answers computed from the key; then C89/C90 for the channel under a random key |
| C111 | `Hmac`, `Hkdf` over the SHA-2 objects | object invariant without length bound (release), and which operation panics first (debug); induction over the update calls and the blocks of output |
| C112 | `Effects.hmacUpdate`: the object after a call, also when it panicked | induction over the calls; `update` of the hash object panics before it stores anything (C87); tags by C111 |
| C113 | `sign`, `verify` over the streaming SHA-512 object | the cores of C42/C44, which hold for any outcome of the hash, with the hash values of C05; in debug builds which of the hashes panics first |
| C114 | as C103 | the simulation and the forking argument of C102 with a weaker freshness condition: `(message, R)` was not handed out; one `R` fixes `S` modulo `L` |
| C115 | the recorded runs of C66-C71, with a recorded Ed25519 verify (Verif/Leak/EdVerify.lean) | a cost logic with credit for buffered bytes (Verif/Proofs/Work.lean), loop by loop; that the recorded verify is the modelled one is C115_recorded |
| C116 | verify with the hash function as a parameter (Verif/Model/EdWith.lean); the claimant in Verif/Spec/OwnGame.lean | two accepted equations give equal multiples of the two keys (C44); in a random function a new value hits the residue fixed by an earlier one, or a multiple of L, with probability 2^-252; induction over the queries |
| C117 | `Model/ChaChaWith.lean`: the stream with the block function as a parameter, proved to be the code (`C117_code`, `C117_code_game`); game in `Spec/StreamGame.lean` | the keystream shift that exchanges the two messages, defined along the run of the adversary, is injective and maps one game to the other, so the probabilities are equal; malleability by induction over the input |
| C118 | the AEAD model as before; two Horner evaluations over F_(2^130-5) fed the same blocks (`Proofs/Growth.lean`) | Cauchy-Davenport on the lines of F_p^2: two blocks enlarge the set of reachable accumulator pairs by 3/32 of all pairs, so 12 blocks reach more than half and 24 reach all; the accumulators are chosen at least 2^128, away from the defect of C51 |
| C119 | game with drawn nonces in `Spec/RandomNonceGame.lean`; ciphers as in C89, C90 | for a sequence of different nonces the game is the game with chosen nonces (induction over the adversary); birthday bound by induction over the number of nonces; average over the sequences |
| C120 | the code under a key of bytes (`aeadScheme`); distinguishers and the attack as a distinguisher in `Spec/Distinguisher.lean`; AES and ChaCha20 as in the standards | a call looks at the block function only at its listed points, so running the code on a table of the answers gives what the code gives (induction over the attacker); then C90, C91 for the ideal side |
| C121 | game with users in `Spec/MultiGame.lean`, distinguishers in `Spec/MultiDistinguisher.lean` | the users put in front of the nonces (prefix code) make it a game with one key; the counting conditions of C89, C90 hold for the product since keys of different users are independent (products of cardinalities) |
| C122 | HMAC as in C06/C08, the FIPS 180-4 compression function as the primitive; explicit distinguishers in Spec/HmacTests | game hops (Bellare 2006): key test, outer test, random function of non-colliding points by an exchange of values, collisions of the cascade by induction on the block lists |
| C123 | hkdf::expand as in C11 over HMAC as in C122 | the attacker on expand is turned into an attacker on HMAC (viaTags, C105), C122, and C100 for the random function |
| C124 | hkdf::expand (C123) and the AEADs (C121) composed | an attacker on expand that derives all keys and runs the whole attack; the values of a random function at different contexts are independent and uniform |
| C125 | AES-GCM as in C121, AES compared with random permutations | switching lemma for families of permutations with a potential function (each user at most B questions), then C121 and C124 |
| C126 | the code under a random key as in C120; game with drawn nonces as in C119 | the attack with the drawn nonces filled in is an attack of C120 if they differ; average over nonces; birthday bound of C119 |
| C127 | the models of all public functions in both build modes | from the exact panic conditions (C17, C22, C28, C34, C35, C41, C85, C111, C113) |
| C128 | EdWith (gen_pk, sign, verify with the hash function as an argument, C103); game (with adaptive corruption of users) and reduction in Spec/MultiEdGame | the reduction simulates the other signers perfectly; one user's key is resampled; the bound of C114 for each choice of the other keys; convexity (Cauchy-Schwarz) |
| C129 | X25519 `dh` and `gen_pk`, Ed25519 `gen_pk` with a random hash (C103); uniform secret keys | at most two clamped scalars lead to one secret (C73, C55, C59), each scalar comes from 32 secret keys; birthday bound |
| C130 | HMAC of the crate as in C122; game for many keys in Spec/MultiMacGame | the attacker against one user answers for the others; one key is resampled; C122 for each choice of the other keys |
| C131 | the streams of Model/ChaCha20 in the game of Spec/StreamGame; the distinguisher in Spec/StreamTest | run of the distinguisher = game over the block function (C117); perfect hiding for random blocks; blocks as lists and as functions are in bijection |
| C132 | Spec/RecordGame.lean: links, numbered records and an attacker that owns the network, for any authenticated cipher; the model of the code with random keys | an attack on the records is turned into an attack on the cipher with one key per link (C121): it counts the records itself and answers for the next record in order by the round trip (C99), so the attacker sees the same, and whoever breaks the order forges; then C121, C125 and C124 |
| C133 | Spec/TunnelGame.lean: the record game of C132 for an attacker that also evaluates the compression function; the model of the code with the compression function replaced (as C108, C110), with the keys of the links from `exchange`, `extract` and `expand` | the attack is an attack on the key derivation (C108) that asks for the keys of all links, so these are as good as random ones unless the secret is found; with random keys it is, for each outcome of exchange and compression function, an attack on records (C132); the distinguishers draw these outcomes themselves |
| C134 | Spec/SignedGame.lean: the protocol, one session of two parties, over a network that the attacker owns, and who gets the secret signature keys once both parties have accepted; the model of the code with SHA-512 of the signatures (as C128) and the compression function of the key derivation (as C133) replaced by random functions, drawn separately | wrong acceptance is a signature for a pair of keys that its owner never signed, so the attack is a forger against two signature keys (C128), for each outcome of the exchange; otherwise a party that accepted has the right keys, and the attack is one on the links (C133), for each outcome of the signature keys and the hash; means over both |
| C135 | Spec/NetGame.lean: users, sessions and an attacker that owns the network and takes over users; the model of the code with SHA-512 of the signatures replaced by a random function (as C128) | wrong acceptance is a signature of a user not taken over for a message it never signed (encodings are injective), so the attack is a forger in C128; sessions that match have the same secret by C37 |
| C136 | Spec/LogGame.lean: programs that look for logarithms, their chance for a point and for a random multiple of B, the random shift; the rest as C114 and C128 | every clamped scalar comes from equally many digests, and clamped scalars are different modulo L; shifting is a bijection of the residues modulo L |
| C137 | Spec/DhGame.lean: programs that look for shared secrets, their chance for two points and for random ones, the random factors; Spec/Draw.lean: random elements | the ladder computes multiples of points (C36), the base point has prime order L, so multiplying by a number is a bijection of the nonzero residues and can be undone; every clamped scalar comes from 32 secret keys, and clamped scalars are different modulo L |
| C138 | Spec/CipherGame.lean: Davies-Meyer, attackers that encipher and decipher; the code of src/sha2.rs with the compression function as a parameter (Model/ShaWith.lean) | each round has an explicit inverse; counting the families of permutations that agree with what was asked: exchanging two unused values is a bijection, so each answer is nearly uniform; without accidents equal chaining values come from equal blocks (as in C109) |
| C139 | Spec/PermGame.lean: the block function with a permutation in the place of the rounds, attackers that also apply the permutation and its inverse; the code of src/poly1305.rs with the block function as a parameter (Model/ChaChaWith.lean) | a quarter round is injective, so the rounds are a permutation; counting the permutations that agree with what was asked, every course of the attack without accidents is at least as likely as with independent random blocks; accidents (the attacker hits a state of a block, or two blocks come from the same state) are rare because states for different keys differ; then C90 |
| C140 | Spec/KeySearch.lean: attackers on many users that also encipher and decipher under keys of their choice; the code of src/gcm.rs over any block cipher (Model/Gcm.lean) | exchange the users' permutations of the cipher for independent ones: a bijection of the keys, ciphers and permutations, which the attack does not notice unless it computes the cipher under a user's key or two users have the same key; then C121 and C125 for each cipher. AES is a permutation by C16. The converse: the tag of the empty message is one block |
| C141 | Spec/MultiPermGame.lean: attackers on many users that also apply a public permutation and its inverse; ChaCha20-Poly1305 as in C139 | the argument of C139 for points that depend on a tuple of keys: a given point is hit with probability u/2^256, a given output with 1/2^256, and the points are different unless two keys are equal; then C121 for each permutation. With C139_code the crate's rounds are one such permutation |
| C142 | Props/Ratchet.lean: relation between chain keys and record keys by Hkdf.expand | induction over the epochs with C124 for two contexts as the step, averaging over the record keys already replaced; then C121 for each stolen key |
| C143 | Props/Committing.lean: sender and receiver written with the models of expand and of the AEADs | C64 (collisions of HMAC expose collisions of the hash) and the AEAD contract C99; C124 for the two derived values and C120 for each commitment |
| C144 | Props/EncThenMac.lean: the application as a scheme of Spec/Game.lean, made of the models of Stream and HMAC; two attacks made of an attack, one on HMAC and one on raw streams | as long as the attack on HMAC does not forge, the game is the game on raw streams with all decryptions rejected (induction over the attack; the texts determine nonce, data and ciphertext); then C122 for each ChaCha20 key and C131 for each HMAC key |
| C145 | Props/Generator.lean: bytes of the model of the iterator of Stream; the key-erasing generator as a relation between keys and outputs; an explicit distinguisher for a test | the distinguisher computes on the block function what the iterator yields (C25); on a random function the bytes are uniform because positions in distinct streams read distinct bytes of distinct blocks; hybrid over the requests by induction |
| C146 | Props/NoExtension.lean, on Model/ShaWith.lean: the crate's hash code over any compression function, and the game of an attacker that evaluates this function | the chaining value after the secret is replaced by a random one (a map between samples that is injective except for accidents: the attacker absorbs the whole secret, or chaining values collide); then the attacker has to guess the hidden bytes, or the last value of the chain is new; for SHA-256 and SHA-512 the attacker of C94 over any function |
| C147 | Props/Siv.lean: the application on the models of HMAC and the stream, the game of Spec/SivGame.lean for deterministic authenticated encryption | an opened forgery is a forged tag (text and tag fix the ciphertext), C122 for each ChaCha20 key; then HMAC is replaced by a random function (C122), its values at different texts by a list of independent tags (Proofs/DrawList.lean), and for each list with different nonces the attack is one on raw streams (C131) |
| C148 | Props/TruncatedTag.lean: the world of C122 with shortened tags | the attack is run on whole tags (C122), and the first bytes of a random function are a random function |
| C149 | Spec/RandomAead.lean: the ideal cipher; Props/RandomAead.lean, Proofs/RandomAead.lean | keys with one result of an encryption are turned one-to-one into keys with any other result (keystream xor, tag mask), so all results are equally likely; induction over the attacker; C89/C90 for decryptions, C120 for the block functions |
| C150 | Spec/KeyGame.lean: the game; Props/KeyPrivacy.lean, Proofs/KeyIdeal.lean | hybrid over the users (C149 for one user, the others simulated); under ideal ciphers both worlds are equally distributed, by resampling the bytes of each new nonce |
| C151 | Model/ShaWith.lean: the code over any compression function; Props/ShortDigest.lean | the general collision, preimage and second preimage bounds of C109 for the first t bytes of the final state |
| C152 | Props/Commitment.lean | C122 with one question, for which its collision term is zero; under a random function the tags of two texts have the same distribution; C64 for binding, C08 for opening |
| C153 | Props/KeyedCollision: `C153_hmac`, `C153_commitments`, `C153_extract`, `C153_expand`, `C153_one_key`, `C153_code`; model: Hmac, Hkdf over ShaWith | A collision of HMAC is one of the inner or of the outer hash; an attacker that computes the inner digests with its own questions finds it, so C109 bounds both |
| C154 | Spec/FileGame, Props/Files; the crate's AEADs as in C120 | records that were all sent are the whole file, because their numbers are in the nonces and the flag marks the last; an accepted record that was not sent is a forgery, so C120 applies |
| C155 | `Spec.Merkle` (hash trees and membership proofs over a hash function that may panic) with the code of src/sha2.rs, for the random case with a random compression function | induction over the tree gives the collision among the hashed texts; a prober that computes both trees and looks for it, and C109 |
| C156 | `Spec.BoxGame` (boxes and the attack with a decryption oracle) with the model of src/curve25519.rs, src/hkdf.rs and the ciphers | the attack is turned into a tester of agreed keys (oracle Diffie-Hellman, as an assumption whose advantage is in the bound) and, with a random key, into an attack on the cipher as in C120; round trip from C108 and C18 |
| C157 | `Spec.MerkleLog` (consistency proofs over the trees of `Spec.Merkle`) with the code of src/sha2.rs, for the random case with a random compression function | induction over the tree of the longer list gives the collision among the hashed texts; a prober that computes both trees and the proof and looks for it, and C109 |
| C158 | `Spec.BoxesGame` (the attack on many boxes) with the boxes of C156 | hybrids: the attack with the second message in the first k boxes; neighbours differ by an attack on one box, and the other one-time keys are fixed by averaging; C156 |
| C159 | `Spec.Layers.layered` (one scheme inside another), `onInner`, `onOuter` (the attack seen by one layer) | exact simulations in both directions: equality of the games by induction on the attack; a link between the two logs shows that what is fresh for both layers is fresh for the inner one; averaging over the other key; C120 |
| C160 | the code of X25519, HMAC and HKDF with the compression function as an argument (C106-C108), on the secret followed by the pre-shared key | C107 (a secret about which something is known), where the secret is the pair; the pre-shared key is guessed with at most p of the blocks the attacker compresses |
| C161 | two calls of the code of SHA-2, HMAC and hmac::verify, and what a caller makes of the results (Verif/Spec/TwoHashes.lean) | C63 and C64 for each half; an attack on both turned into one on either (onFirst, onSecond), the key of the other one fixed to the best value; C122 |
| C162 | Spec/Envelope.lean: wrapping, and two attacks on the wrapping cipher made of an attack on the whole; the game of Spec/MultiGame.lean for the data | wrapped zeros in place of wrapped keys (one hop, data keys fixed to the worst value); then the master key is independent of the data keys; C120 for the wraps, C121 and C125 for the data |
| C163 | Spec/Login.lean: two-part attackers on HMAC as in C122, with the challenge drawn in between | the two parts and the answer put together are an attack on HMAC (andThen), which forges unless the challenge was answered before; the challenge is drawn independently of the texts asked for; C122 |

Nothing on the list is outside what a model can express.

### Leakage model (C66–C71)

What a timing observer sees of a run is the sequence of the outcomes of all conditionals (loop conditions, assertions and
matches included) and of the positions at which arrays and slices are accessed (`Leak/Basic.lean`). The functions in `Leak/`
repeat those of `Model/` statement by statement in a writer monad over that record, for builds without overflow checks. The
`*_val` theorems show that they compute exactly what the model computes, so the two versions cannot differ in what they return;
that their conditionals and accesses are those of the source rests on reading, like the rest of the model. Not recorded:
straight-line arithmetic, accesses at literal positions of fixed-size arrays. Assumed: a single instruction takes a time
independent of its operands (in particular the 64-bit multiplications), and the compiler introduces no data-dependent branch. In
builds with overflow checks every check is one more conditional; C127 says that whether a call panics depends on lengths only, and
in a call that returns every check has the same outcome. The traces in `Leak/` do not contain the checks. `ed25519::verify` works on public data, is not constant-time (`slide`, `*_vartime`) and is not claimed.

## Findings (the code disagrees with the standard)

* **Poly1305 final reduction** (src/poly1305.rs, `freeze`, lines 205-227; C51). `add` leaves the top limb unmasked, so
  for an accumulator held in `[2^130-5, 2^130)` (or just above) the selection mask computed by `freeze` is `0xfffffffe` instead of `0`:
  bit 0 of every byte comes from the reduced value and the other bits from the unreduced one. The tag then differs
  from RFC 8439. `C51_deviation` exhibits a key/nonce/data triple; `C29_rfc` shows tags are right whenever the RFC
  accumulator is at least 2^31 and `C29_cases` gives the exact wrong value otherwise. For a random one-time key
  the chance is at most n/2^75 for n authenticated blocks (C92), and encrypt/decrypt of this library remain consistent with each other (C32, C33).

* **Ed25519 verification is laxer than RFC 8032** (src/ed25519.rs, `verify` and `from_bytes_negate_vartime`): `S` is only
  required to be below 2^253, so signatures are malleable (C45); public keys with `y >= p`, or with `x = 0` and the sign bit
  set, are accepted although they are no encodings (C52); small-order keys are accepted (C53). All of this is inherited from
  `ref10`.
* **Ed25519 verification is stricter than RFC 8032 in one respect**: it uses the equation without the cofactor, and so rejects
  signatures that the RFC's equation accepts (C76). The RFC permits this; batch verifiers may disagree with this library.

Properties of the algorithms (not deviations) that callers should know are proved too: X25519 public keys `u` and `1/u` are
interchangeable (C72), GCM is not key-committing (C78).

## How the big parts are proved

* **Straight-line limb code** (`Fe` multiplication, squaring, `sc_reduce`, `sc_muladd`, ...). `tools/gen_sl.py` translates the
  Rust statements one by one into programs of a small straight-line language (`Model/SL.lean`, `Model/FeProgs.lean`, `Model/ScProgs.lean`), whose
  interpreter checks every `i32`/`i64` operation for overflow. A verified interval analysis shows that no operation
  overflows for operands in the stated ranges, a verified polynomial analysis that the weighted sum of the limbs of the
  result is the intended polynomial of the inputs. Both analyses are Lean functions with soundness proofs; the kernel
  evaluates them (`decide +kernel`).
* **X25519**: the ladder is proved against Mathlib's Weierstrass group law over every extension field of the integers modulo
  2^255 - 19 (primality by a Pratt certificate checked in the kernel).
* **Edwards curve**: completeness of the addition law and associativity are proved through the birational map to the
  Montgomery/Weierstrass curve, again with Mathlib's group law (`Proofs/Edwards*.lean`). The points form an `AddCommGroup`.
* **Tables**: `tools/gen_tables.py` transcribes `const_curve25519.rs` and writes affine coordinates as certificates;
  `Proofs/EdTables.lean` checks each certificate against the addition law in the kernel, nothing about them is assumed.
* **Recodings**: signed radix-16 digits (`Proofs/EdBase.lean`) and the sliding window of `verify` (`Proofs/EdSlide.lean`), by
  invariants; that the carry never runs off the end of the array is part of the invariant.

* **Group orders**: `L` and the twist prime are proved prime by Pocklington certificates (`Proofs/PrimeL.lean`). A point of order
  `L`, a point of order 8 and the bound `#E <= 2p + 1` force `#E = 8 L`; curve and twist together have `2p + 2` points
  (quadratic characters), which gives the order of the twist (`Proofs/MontOrder.lean`, `Proofs/X25519Order.lean`,
  `Proofs/EdOrder.lean`). No point-counting result is assumed.

## Validation of the model

`tools/conformance.py` reads every unit-test vector from the `mod tests` sections of /repo/src and evaluates the model on it in
both build modes (233 checks: AES, ChaCha20, X25519, Ed25519, GCM, GHASH, HKDF, HMAC, ChaCha20-Poly1305, SHA-2 including the
million-byte message). All agree. This is evidence for the reading of the source, not part of any proof. `seeded/LOG.jsonl`
records the wrong programs on which the theorems were tried.

## Trusted base

* Lean 4.33.0 kernel; axioms at most `propext`, `Classical.choice`, `Quot.sound`.
* The reading of the Rust source (nothing was executed from /repo). Semantics assumed: Rust reference integer
  semantics, `byteorder` reads/writes, `slice::chunks`, `Iterator::zip` calling the left iterator first,
  `RangeFrom::next` computing the successor before returning (overflow panics with overflow checks, wraps without).
* For C83–C87: a panic unwinds and is caught (or the memory is inspected by its owner); `x += y` that panics stores nothing;
  writes before the panic are kept. Aborting builds (`panic = "abort"`) have no observer.
* The specifications in `Spec/`.
* For C66–C71 the leakage model described above.
* For the statements about random functions (C79–C82, C89–C91, C100, C102–C110, C114, C116, C117, C119, C128, C129, C138–C141, C146, C151, C153, C160, the last parts of C155 and C157, the compression function in C133 and C134, and SHA-512 of the signatures in C134, C135 and C136) what is random is an argument of the model (the block
  function, the hash, the compression function, in C138 only its rounds, in C139 and C141 the rounds of ChaCha20, in C140 the block cipher); everything around it is the crate's code, and a theorem beside each (`*_code`) says that with the
  crate's own function in that place the model is the crate's. That AES, the ChaCha20 block function or the SHA-2 compression function behaves like a
  random one is not claimed, and cannot be proved. C120–C126, C130–C134, C142–C145, C147–C150, C152, C154, C156, C158, C159, C161 (forgeries), C162, C163 are reductions for the code itself under random keys: the bound contains the
  advantage of an explicit distinguisher against AES, the ChaCha20 block function or the SHA-2 compression function, and nothing is claimed about how
  small that advantage is. The bounds of C156 and C158 contain in addition the advantage of an explicit tester that tells X25519-agreed keys from random ones (the oracle Diffie-Hellman assumption); nothing is claimed about its size either. Probabilities are quotients of cardinalities of finite sets.
* Not modelled: the `Clone`/`Copy`/`Default` impls derived by the compiler on internal types (the model copies values), documentation tests and benches, and the memory layout (stack copies of
  secrets are not erased by the crate, and no claim is made about them). `usize` has 64 bits: `1 << 36` in src/gcm.rs:130 does not fit 32 bits.
  `byteorder` panics for slices of a wrong length are not modelled where the caller passes slices of constant length.
