import Verif.Proofs.ShaAny
import Verif.Proofs.Hmac

/-! # Properties C01–C05: tag comparison and SHA-2

`Mode` ranges over builds with (`debug`) and without (`release`) overflow checks; `none` is a panic. -/

namespace CryptoPure.Props
open CryptoPure.Model CryptoPure.Model.Sha2

/-- The four public SHA-2 types. -/
inductive Variant where
  | sha224 | sha256 | sha384 | sha512
deriving DecidableEq, Repr

/-- The modelled implementation of each type. -/
def Variant.code : Variant → HashFunction
  | .sha224 => Sha224
  | .sha256 => Sha256
  | .sha384 => Sha384
  | .sha512 => Sha512

/-- The FIPS 180-4 hash function. -/
def Variant.fips : Variant → Bytes → Bytes
  | .sha224 => Spec.Sha2.sha224
  | .sha256 => Spec.Sha2.sha256
  | .sha384 => Spec.Sha2.sha384
  | .sha512 => Spec.Sha2.sha512

/-- The FIPS 180-4 hash function, except that the padding carries the given number as bit length. -/
def Variant.fipsWithLength : Variant → Bytes → Nat → Bytes
  | .sha224 => Spec.Sha2.digestWith Spec.Sha2.alg256 Spec.Sha2.iv224 28
  | .sha256 => Spec.Sha2.digestWith Spec.Sha2.alg256 (Spec.Sha2.ivRoots 32 0) 32
  | .sha384 => Spec.Sha2.digestWith Spec.Sha2.alg512 (Spec.Sha2.ivRoots 64 8) 48
  | .sha512 => Spec.Sha2.digestWith Spec.Sha2.alg512 (Spec.Sha2.ivRoots 64 0) 64

/-- Digest size in bytes (FIPS 180-4 §1). -/
def Variant.size : Variant → Nat
  | .sha224 => 28
  | .sha256 => 32
  | .sha384 => 48
  | .sha512 => 64

/-- Block size in bytes (FIPS 180-4 §1). -/
def Variant.block : Variant → Nat
  | .sha224 | .sha256 => 64
  | .sha384 | .sha512 => 128

theorem Variant.digestSize_eq (v : Variant) : v.code.digestSize = v.size := by cases v <;> rfl
theorem Variant.blockSize_eq (v : Variant) : v.code.blockSize = v.block := by cases v <;> rfl

/-- The internal invariant relating an object to the bytes it has absorbed. -/
def Variant.rel : (v : Variant) → Bytes → v.code.State → Prop
  | .sha224 => Proofs.ShaRel P256 iv224
  | .sha256 => Proofs.ShaRel P256 iv256
  | .sha384 => Proofs.ShaRel P512 iv384
  | .sha512 => Proofs.ShaRel P512 iv512

theorem Variant.lawful (v : Variant) : Proofs.Lawful v.code v.fips v.rel := by
  cases v
  · have := Proofs.lawful_impl Proofs.Sha2.matches256 iv224 28 (by decide) (by decide) (by decide) (by decide) (by decide)
    rw [show Spec.Sha2.digest Spec.Sha2.alg256 iv224 28 = Variant.fips .sha224 by rw [Proofs.Sha2.iv224_eq]; rfl] at this
    exact this
  · have := Proofs.lawful_impl Proofs.Sha2.matches256 iv256 32 (by decide) (by decide) (by decide) (by decide) (by decide)
    rw [show Spec.Sha2.digest Spec.Sha2.alg256 iv256 32 = Variant.fips .sha256 by rw [Proofs.Sha2.iv256_eq]; rfl] at this
    exact this
  · have := Proofs.lawful_impl Proofs.Sha2.matches512 iv384 48 (by decide) (by decide) (by decide) (by decide) (by decide)
    rw [show Spec.Sha2.digest Spec.Sha2.alg512 iv384 48 = Variant.fips .sha384 by rw [Proofs.Sha2.iv384_eq]; rfl] at this
    exact this
  · have := Proofs.lawful_impl Proofs.Sha2.matches512 iv512 64 (by decide) (by decide) (by decide) (by decide) (by decide)
    rw [show Spec.Sha2.digest Spec.Sha2.alg512 iv512 64 = Variant.fips .sha512 by rw [Proofs.Sha2.iv512_eq]; rfl] at this
    exact this

/-! ## C01 -/

/-- `util::verify_16` never panics and returns true exactly on equal arguments. -/
theorem C01_verify16 (x y : Bytes) (_hx : x.length = 16) : Util.verify16 x y = some (decide (x = y)) :=
  Proofs.compare_spec x y

/-- The internal comparison panics exactly on different lengths and otherwise is zero exactly on equality. -/
theorem C01_verify_inner (x y : Bytes) :
    (x.length ≠ y.length → Util.verifyInner x y = none) ∧
    (x.length = y.length → ∃ d, Util.verifyInner x y = some d ∧ (d = 0 ↔ x = y)) := by
  refine ⟨fun h => ?_, Proofs.verifyInner_spec x y⟩
  rw [Util.verifyInner, beq_eq_false_iff_ne.mpr h]; rfl

example : Util.verify16 (toBE 16 77) (toBE 16 77 ++ [0]) = some false := by
  rw [C01_verify16 _ _ (by decide)]; decide
example : Util.verify16 (toBE 16 77) (toBE 16 77) = some true := by
  rw [C01_verify16 _ _ (by decide)]; decide

/-! ## C02 -/

/-- `sha224/256/384/512(message)` is the FIPS 180-4 digest, in every build mode, for every message shorter
than 2^61 bytes. -/
theorem C02_sha2_fips (v : Variant) (m : Mode) (msg : Bytes) (h : msg.length < 2 ^ 61) :
    wrapper v.code m msg = some (v.fips msg) := by
  obtain ⟨s, h1, h2⟩ := v.lawful.update m [] _ msg v.lawful.init (by simpa using h)
  unfold wrapper
  rw [h1]
  exact v.lawful.finish m msg s _ h2 h (by simp)

/-- The four public one-shot functions. -/
theorem C02_functions (m : Mode) (msg : Bytes) (h : msg.length < 2 ^ 61) :
    sha224 m msg = some (Spec.Sha2.sha224 msg) ∧ sha256 m msg = some (Spec.Sha2.sha256 msg) ∧
    sha384 m msg = some (Spec.Sha2.sha384 msg) ∧ sha512 m msg = some (Spec.Sha2.sha512 msg) :=
  ⟨C02_sha2_fips .sha224 m msg h, C02_sha2_fips .sha256 m msg h, C02_sha2_fips .sha384 m msg h,
    C02_sha2_fips .sha512 m msg h⟩

set_option maxRecDepth 100000 in
/-- The standard's own test vector: SHA-256("abc"). -/
example : Spec.Sha2.sha256 [0x61, 0x62, 0x63]
    = toBE 32 0xba7816bf8f01cfea414140de5dae2223b00361a396177a9cb410ff61f20015ad := by
  have h := C02_sha2_fips .sha256 .debug [0x61, 0x62, 0x63] (by decide)
  have e : wrapper Variant.sha256.code .debug [0x61, 0x62, 0x63]
    = some (toBE 32 0xba7816bf8f01cfea414140de5dae2223b00361a396177a9cb410ff61f20015ad) := by
    decide +kernel
  rw [e] at h
  exact (Option.some.inj h).symm

/-! ## C03 -/

/-- A fresh object fed `parts`, one `update` call each, then `write_digest` into `out`. -/
def hashParts (v : Variant) (m : Mode) (parts : List Bytes) (out : Bytes) : Option Bytes := do
  let s ← parts.foldlM (v.code.update m) v.code.default
  v.code.writeDigest m s out

theorem streamed_release (v : Variant) (parts : List Bytes) (out : Bytes) (ho : out.length = v.size) :
    hashParts v .release parts out
      = some (v.fipsWithLength parts.flatten (8 * parts.flatten.length % 2 ^ 64)) := by
  cases v
  · have := Proofs.streamed_release Proofs.Sha2.matches256 iv224 28 64 (by decide) parts out ho
    rw [Proofs.Sha2.iv224_eq] at this
    unfold hashParts Variant.code Sha224
    rw [Proofs.Sha2.iv224_eq]; exact this
  · have := Proofs.streamed_release Proofs.Sha2.matches256 iv256 32 64 (by decide) parts out ho
    rw [Proofs.Sha2.iv256_eq] at this
    unfold hashParts Variant.code Sha256
    rw [Proofs.Sha2.iv256_eq]; exact this
  · have := Proofs.streamed_release Proofs.Sha2.matches512 iv384 48 128 (by decide) parts out ho
    rw [Proofs.Sha2.iv384_eq] at this
    unfold hashParts Variant.code Sha384
    rw [Proofs.Sha2.iv384_eq]; exact this
  · have := Proofs.streamed_release Proofs.Sha2.matches512 iv512 64 128 (by decide) parts out ho
    rw [Proofs.Sha2.iv512_eq] at this
    unfold hashParts Variant.code Sha512
    rw [Proofs.Sha2.iv512_eq]; exact this

theorem streamed_debug (v : Variant) (parts : List Bytes) (out : Bytes)
    (hp : ∀ p ∈ parts, p.length < 2 ^ 64) (hl : 2 ^ 61 ≤ parts.flatten.length) :
    hashParts v .debug parts out = none := by
  cases v
  · exact Proofs.streamed_debug Proofs.Sha2.matches256 iv224 28 64 parts out hp hl
  · exact Proofs.streamed_debug Proofs.Sha2.matches256 iv256 32 64 parts out hp hl
  · exact Proofs.streamed_debug Proofs.Sha2.matches512 iv384 48 128 parts out hp hl
  · exact Proofs.streamed_debug Proofs.Sha2.matches512 iv512 64 128 parts out hp hl

theorem hashParts_wrong_length (v : Variant) (m : Mode) (parts : List Bytes) (out : Bytes)
    (h : out.length ≠ v.size) : hashParts v m parts out = none := by
  have hw : ∀ s, v.code.writeDigest m s out = none := by
    intro s
    cases v <;>
    · simp only [Variant.size] at h
      simp only [Variant.code, Sha224, Sha256, Sha384, Sha512, implFunction]
      rw [beq_eq_false_iff_ne.mpr (fun e => h e.symm)]
      rfl
  unfold hashParts
  cases parts.foldlM (v.code.update m) v.code.default <;> simp [hw]

/-- Splitting a message into any sequence of `update` calls changes nothing: same digest, or same panic, as
one call with the whole message. (Every slice length fits in 64 bits; that is the only assumption.) -/
theorem C03_split_independent (v : Variant) (m : Mode) (parts : List Bytes) (out : Bytes)
    (h : parts.flatten.length < 2 ^ 64) :
    hashParts v m parts out = hashParts v m [parts.flatten] out := by
  have hf : [parts.flatten].flatten = parts.flatten := by simp
  by_cases ho : out.length = v.size
  · cases m with
    | release => rw [streamed_release v parts out ho, streamed_release v _ out ho, hf]
    | debug =>
      rcases Nat.lt_or_ge parts.flatten.length (2 ^ 61) with hl | hl
      · obtain ⟨s, h1, h2⟩ := Proofs.foldlM_update v.lawful .debug parts [] _ v.lawful.init (by simpa using hl)
        obtain ⟨s', h1', h2'⟩ := Proofs.foldlM_update v.lawful .debug [parts.flatten] [] _ v.lawful.init
          (by simpa using hl)
        unfold hashParts
        rw [h1, h1']
        have ho' : out.length = v.code.digestSize := by rw [ho, v.digestSize_eq]
        rw [hf] at h2'
        simp only [Option.bind_eq_bind, Option.bind_some]
        rw [v.lawful.finish .debug _ s out h2 (by simpa using hl) ho',
          v.lawful.finish .debug _ s' out h2' (by simpa using hl) ho']
      · rw [streamed_debug v parts out ?_ hl, streamed_debug v [parts.flatten] out ?_ (by rw [hf]; exact hl)]
        · intro p hp; rw [List.mem_singleton.mp hp]; exact h
        · intro p hp
          have : p.length ≤ parts.flatten.length := (List.sublist_flatten_of_mem hp).length_le
          omega
  · rw [hashParts_wrong_length v m _ out ho, hashParts_wrong_length v m _ out ho]

/-- ... and below the length limit that digest is the FIPS 180-4 digest of the concatenation. -/
theorem C03_split_fips (v : Variant) (m : Mode) (parts : List Bytes) (out : Bytes)
    (ho : out.length = v.size) (h : parts.flatten.length < 2 ^ 61) :
    hashParts v m parts out = some (v.fips parts.flatten) := by
  obtain ⟨s, h1, h2⟩ := Proofs.foldlM_update v.lawful m parts [] _ v.lawful.init (by simpa using h)
  unfold hashParts
  rw [h1]
  exact v.lawful.finish m _ s out h2 (by simpa using h) (by rw [ho, v.digestSize_eq])

example : hashParts .sha384 .debug [[1, 2], [], List.replicate 200 7, [9]] (zeros 48)
    = some (Spec.Sha2.sha384 ([1, 2] ++ List.replicate 200 7 ++ [9])) :=
  C03_split_fips .sha384 .debug [[1, 2], [], List.replicate 200 7, [9]] (zeros 48) rfl (by norm_num)

/-! ## C04 -/

/-- `write_digest` panics for every output length other than the digest size, whatever the object's state. -/
theorem C04_wrong_length_panics (v : Variant) (m : Mode) (s : v.code.State) (out : Bytes)
    (h : out.length ≠ v.size) : v.code.writeDigest m s out = none := by
  cases v <;>
  · simp only [Variant.size] at h
    simp only [Variant.code, Sha224, Sha256, Sha384, Sha512, implFunction]
    rw [beq_eq_false_iff_ne.mpr (fun e => h e.symm)]
    rfl

/-- With the right output length (and message below the limit) it completes, replacing the entire buffer: the
result does not depend on its old contents. -/
theorem C04_right_length_completes (v : Variant) (m : Mode) (parts : List Bytes) (out out' : Bytes)
    (h : parts.flatten.length < 2 ^ 61) (ho : out.length = v.size) (ho' : out'.length = v.size) :
    ∃ d, hashParts v m parts out = some d ∧ d.length = v.size ∧ hashParts v m parts out' = some d := by
  refine ⟨v.fips parts.flatten, C03_split_fips v m parts out ho h, ?_, C03_split_fips v m parts out' ho' h⟩
  rw [v.lawful.hashLen, v.digestSize_eq]

example : ∃ d, hashParts .sha224 .debug [[5]] (zeros 28) = some d ∧ d.length = 28 ∧
    hashParts .sha224 .debug [[5]] (List.replicate 28 0xff) = some d :=
  C04_right_length_completes .sha224 .debug [[5]] _ _ (by decide) (by decide) (by decide)

/-! ## C05 -/

/-- With overflow checks, a total of 2^61 bytes or more always ends in a panic (in some `update` or in
`write_digest`). -/
theorem C05_debug_panics (v : Variant) (parts : List Bytes) (out : Bytes)
    (hp : ∀ p ∈ parts, p.length < 2 ^ 64) (hl : 2 ^ 61 ≤ parts.flatten.length) :
    hashParts v .debug parts out = none := streamed_debug v parts out hp hl

/-- Without overflow checks the digest is the FIPS computation with the bit length taken modulo 2^64, for
every input length. -/
theorem C05_release_wraps (v : Variant) (parts : List Bytes) (out : Bytes) (ho : out.length = v.size) :
    hashParts v .release parts out
      = some (v.fipsWithLength parts.flatten (8 * parts.flatten.length % 2 ^ 64)) :=
  streamed_release v parts out ho

/-- The standard's digest is the same computation with the true bit length. -/
theorem C05_fips_length (v : Variant) (msg : Bytes) : v.fips msg = v.fipsWithLength msg (8 * msg.length) := by
  cases v <;> rfl

/-- The hypotheses of `C05_debug_panics` are met by real streams, e.g. 2^30 updates of 2^31 bytes. -/
example : hashParts .sha512 .debug (List.replicate (2 ^ 30) (zeros (2 ^ 31))) (zeros 64) = none := by
  apply C05_debug_panics
  · intro p hp; rw [List.eq_of_mem_replicate hp, zeros_length]; norm_num
  · simp only [List.length_flatten, List.map_replicate, zeros_length, List.sum_replicate_nat]
    norm_num

/-! ## Further concrete cases -/

example : ∃ d, Util.verifyInner [1, 2] [1, 3] = some d ∧ (d = 0 ↔ ([1, 2] : Bytes) = [1, 3]) := (C01_verify_inner [1, 2] [1, 3]).2 rfl

example : Util.verifyInner [1, 2] [1] = none := (C01_verify_inner [1, 2] [1]).1 (by decide)

/-- Splitting does not matter, also beyond the FIPS limit of `2^61` bytes. -/
example (m : Mode) (parts : List Bytes) (out : Bytes) (h : parts.flatten.length = 2 ^ 62) :
    hashParts .sha256 m parts out = hashParts .sha256 m [parts.flatten] out :=
  C03_split_independent .sha256 m parts out (by rw [h]; norm_num)

example (s : Sha256.State) : Sha256.writeDigest .release s (zeros 31) = none :=
  C04_wrong_length_panics .sha256 .release s (zeros 31) (by decide)

/-- Without overflow checks a message of `2^61` bytes is hashed as if its length were 0. -/
example (parts : List Bytes) (h : parts.flatten.length = 2 ^ 61) :
    hashParts .sha512 .release parts (zeros 64) = some (Variant.sha512.fipsWithLength parts.flatten 0) := by
  rw [C05_release_wraps .sha512 parts (zeros 64) (zeros_length 64), h, show 8 * 2 ^ 61 % 2 ^ 64 = 0 by norm_num]

end CryptoPure.Props
