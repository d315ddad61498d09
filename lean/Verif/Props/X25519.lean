import Verif.Proofs.Ladder
import Mathlib.FieldTheory.IsAlgClosed.AlgebraicClosure

/-! # C35–C40: X25519 -/

namespace CryptoPure.Props.X25519
open WeierstrassCurve Montgomery Spec Spec.X25519 CryptoPure.Ladder
open Model (X25519.dh X25519.genPk)

/-! ## C35 -/

/-- C35. On 32-byte arguments `dh` and `gen_pk` never panic and return the RFC 7748 X25519 function, in both build
modes; `gen_pk` uses the base point 9. -/
theorem C35_dh_rfc7748 (m : Mode) (pk sk : Bytes) (h1 : pk.length = 32) (h2 : sk.length = 32) :
    Model.X25519.dh m pk sk = some (x25519 sk pk) ∧ Model.X25519.genPk m sk = some (x25519 sk (9 :: zeros 31)) :=
  ⟨Model.X25519.scalarmult_spec m h2 h1, Model.X25519.scalarmult_spec m h2 (by decide)⟩

/-- C35. Any other length panics. -/
theorem C35_dh_panics (m : Mode) (pk sk : Bytes) :
    (Model.X25519.dh m pk sk = none ↔ pk.length ≠ 32 ∨ sk.length ≠ 32) ∧
    (Model.X25519.genPk m sk = none ↔ sk.length ≠ 32) := by
  constructor
  · constructor
    · intro h
      by_contra hc
      have hc' : pk.length = 32 ∧ sk.length = 32 := by tauto
      rw [(C35_dh_rfc7748 m pk sk hc'.1 hc'.2).1] at h
      cases h
    · intro h
      exact Model.X25519.scalarmult_panic m (by tauto)
  · constructor
    · intro h hc
      rw [(C35_dh_rfc7748 m (zeros 32) sk (by decide) hc).2] at h
      cases h
    · intro h
      exact Model.X25519.scalarmult_panic m (Or.inl h)

example : (zeros 32).length = 32 ∧ (9 :: zeros 31).length = 32 := by decide

/-! ## C36 -/

theorem decode_encode (v : F) : decodeU (encodeU v) = v := by
  unfold decodeU encodeU
  have h : v.val < p25519 := ZMod.val_lt v
  have hp : p25519 < 2 ^ 255 := by norm_num [p25519]
  rw [leNat_toLE, Nat.mod_eq_of_lt (by omega : v.val < 256 ^ 32), Nat.mod_eq_of_lt (by omega), ZMod.natCast_zmod_val]

theorem decodeScalar_lt (k : Bytes) : decodeScalar k < 2 ^ 255 := by
  unfold decodeScalar
  omega

/-- C36. If `P` is a point of `v² = u³ + 486662 u² + u` over any extension field `K` of the integers modulo
`2^255 - 19` and its u-coordinate is the one encoded by `pk`, then `dh(pk, sk)` encodes the u-coordinate of the clamped
scalar times `P` (0 standing for the point at infinity in both places). -/
theorem C36_dh_is_scalar_multiplication (m : Mode) {K : Type*} [Field K] [DecidableEq K] [Algebra F K] (pk sk : Bytes)
    (h1 : pk.length = 32) (h2 : sk.length = 32) (P : (curve (486662 : K)).Point)
    (hP : x0 P = algebraMap F K (decodeU pk)) :
    ∃ out, Model.X25519.dh m pk sk = some out ∧ out.length = 32 ∧
      algebraMap F K (decodeU out) = x0 (decodeScalar sk • P) := by
  refine ⟨x25519 sk pk, (C35_dh_rfc7748 m pk sk h1 h2).1, by simp [x25519, encodeU], ?_⟩
  rw [x25519, decode_encode]
  exact ladder_spec (decodeScalar_lt sk) _ P hP

/-- C36. Over an algebraically closed extension every u-coordinate, including those of the twist, belongs to such a
point, so the previous theorem covers every public key. -/
theorem C36_every_u_is_a_point {K : Type*} [Field K] [DecidableEq K] [Algebra F K] [IsAlgClosed K] (u : F) :
    ∃ P : (curve (486662 : K)).Point, P ≠ 0 ∧ x0 P = algebraMap F K u := by
  obtain ⟨v, hv⟩ := IsAlgClosed.exists_pow_nat_eq
    ((algebraMap F K u) ^ 3 + 486662 * (algebraMap F K u) ^ 2 + algebraMap F K u) (n := 2) (by norm_num)
  exact ⟨.some _ v (nonsingular_of two_ne' A_ne' hv), Affine.Point.some_ne_zero _, rfl⟩

theorem nat_eq {a b : Nat} (h : a % p25519 = b % p25519) : ((a : Nat) : F) = ((b : Nat) : F) :=
  (ZMod.natCast_eq_natCast_iff' a b p25519).mpr h

/-- A concrete point over the base field itself: the base point, u = 9. -/
theorem base_point : (14781619447589544791020593568409986887264606134616475288964881837755586237401 : F) ^ 2 =
    9 ^ 3 + 486662 * 9 ^ 2 + 9 := by
  exact_mod_cast nat_eq (a := 14781619447589544791020593568409986887264606134616475288964881837755586237401 ^ 2)
    (b := 9 ^ 3 + 486662 * 9 ^ 2 + 9) (by rw [Model.Fe.p25519_eq]; norm_num)

theorem basePointCase : ∃ P : (curve (486662 : F)).Point, P ≠ 0 ∧ x0 P = algebraMap F F (decodeU (9 :: zeros 31)) := by
  have h9 : decodeU (9 :: zeros 31) = 9 := by
    unfold decodeU
    rw [show leNat (9 :: zeros 31) % 2 ^ 255 = 9 by decide +kernel]
    rfl
  exact ⟨.some 9 _ (nonsingular_of two_ne A_ne base_point), Affine.Point.some_ne_zero _, by rw [h9]; rfl⟩

/-! ## C37 -/

/-- C37. `dh(dh(u, a), b) = dh(dh(u, b), a)` for all `u`, `a`, `b`. -/
theorem C37_dh_commutes (m : Mode) (u a b : Bytes) (hu : u.length = 32) (ha : a.length = 32) (hb : b.length = 32) :
    ∃ ua ub s, Model.X25519.dh m u a = some ua ∧ Model.X25519.dh m u b = some ub ∧
      Model.X25519.dh m ua b = some s ∧ Model.X25519.dh m ub a = some s := by
  classical
  let K := AlgebraicClosure F
  obtain ⟨P, -, hP⟩ := C36_every_u_is_a_point (K := K) (decodeU u)
  obtain ⟨ua, h1, l1, p1⟩ := C36_dh_is_scalar_multiplication m u a hu ha P hP
  obtain ⟨ub, h2, l2, p2⟩ := C36_dh_is_scalar_multiplication m u b hu hb P hP
  have k1 := ladder_spec (decodeScalar_lt b) (decodeU ua) _ p1.symm
  have k2 := ladder_spec (decodeScalar_lt a) (decodeU ub) _ p2.symm
  refine ⟨ua, ub, x25519 b ua, h1, h2, (C35_dh_rfc7748 m ua b l1 hb).1, ?_⟩
  rw [(C35_dh_rfc7748 m ub a l2 ha).1]
  refine congrArg (fun v => some (encodeU v)) ?_
  apply (algebraMap F K).injective
  rw [k1, k2, smul_smul, smul_smul, mul_comm]

/-- C37. Key agreement: `dh(gen_pk(a), b) = dh(gen_pk(b), a)`. -/
theorem C37_key_agreement (m : Mode) (a b : Bytes) (ha : a.length = 32) (hb : b.length = 32) :
    ∃ pa pb s, Model.X25519.genPk m a = some pa ∧ Model.X25519.genPk m b = some pb ∧
      Model.X25519.dh m pa b = some s ∧ Model.X25519.dh m pb a = some s :=
  C37_dh_commutes m (9 :: zeros 31) a b (by decide) ha hb

example : (zeros 32).length = 32 ∧ (List.replicate 32 (7 : U8)).length = 32 := by decide

/-! ## C38 -/

/-- C38. The output depends only on the clamped scalar and on the public key modulo `2^255`, reduced modulo
`2^255 - 19`. -/
theorem C38_dh_depends_only_on (m : Mode) (pk pk' sk sk' : Bytes) (h1 : pk.length = 32) (h1' : pk'.length = 32)
    (h2 : sk.length = 32) (h2' : sk'.length = 32)
    (hs : leNat sk % 2 ^ 254 / 8 = leNat sk' % 2 ^ 254 / 8)
    (hp : leNat pk % 2 ^ 255 % (2 ^ 255 - 19) = leNat pk' % 2 ^ 255 % (2 ^ 255 - 19)) :
    Model.X25519.dh m pk sk = Model.X25519.dh m pk' sk' := by
  rw [(C35_dh_rfc7748 m pk sk h1 h2).1, (C35_dh_rfc7748 m pk' sk' h1' h2').1]
  have e1 : decodeScalar sk = decodeScalar sk' := by unfold decodeScalar; rw [hs]
  have e2 : decodeU pk = decodeU pk' := nat_eq hp
  rw [x25519, x25519, e1, e2]

/-- C38. In particular the top bit of the public key, the three low bits and the two top bits of the secret key are
ignored. -/
theorem C38_masked_bits_ignored (m : Mode) (a z b y a' y' : U8) (pmid kmid : Bytes) (hp : pmid.length = 30)
    (hk : kmid.length = 30) (hz : ∀ i, i < 7 → b.getLsbD i = z.getLsbD i)
    (ha : ∀ i, 3 ≤ i → i < 8 → a.getLsbD i = a'.getLsbD i) (hy : ∀ i, i < 6 → y.getLsbD i = y'.getLsbD i) (p0 : U8) :
    Model.X25519.dh m (p0 :: (pmid ++ [z])) (a :: (kmid ++ [y])) =
      Model.X25519.dh m (p0 :: (pmid ++ [b])) (a' :: (kmid ++ [y'])) := by
  have q1 : b.toNat % 128 = z.toNat % 128 := by
    apply Nat.eq_of_testBit_eq
    intro i
    rw [show 128 = 2 ^ 7 by norm_num, Nat.testBit_mod_two_pow, Nat.testBit_mod_two_pow]
    by_cases hi : i < 7
    · simp only [hi, decide_true, Bool.true_and]
      exact hz i hi
    · simp [hi]
  have q2 : y.toNat % 64 = y'.toNat % 64 := by
    apply Nat.eq_of_testBit_eq
    intro i
    rw [show 64 = 2 ^ 6 by norm_num, Nat.testBit_mod_two_pow, Nat.testBit_mod_two_pow]
    by_cases hi : i < 6
    · simp only [hi, decide_true, Bool.true_and]
      exact hy i hi
    · simp [hi]
  have q3 : a.toNat / 8 = a'.toNat / 8 := by
    apply Nat.eq_of_testBit_eq
    intro i
    change (a.toNat / 2 ^ 3).testBit i = (a'.toNat / 2 ^ 3).testBit i
    rw [Nat.testBit_div_two_pow, Nat.testBit_div_two_pow]
    by_cases hi : i + 3 < 8
    · exact ha (i + 3) (by omega) hi
    · rw [Nat.testBit_lt_two_pow, Nat.testBit_lt_two_pow]
      · exact lt_of_lt_of_le a'.isLt (Nat.pow_le_pow_right (by norm_num) (by omega))
      · exact lt_of_lt_of_le a.isLt (Nat.pow_le_pow_right (by norm_num) (by omega))
  have b1 := leNat_lt pmid
  have b2 := leNat_lt kmid
  have i1 := p0.isLt; have i2 := z.isLt; have i3 := b.isLt; have i4 := y.isLt; have i5 := y'.isLt
  have i6 := a.isLt; have i7 := a'.isLt
  rw [hp] at b1
  rw [hk] at b2
  refine C38_dh_depends_only_on m _ _ _ _ (by simp [hp]) (by simp [hp]) (by simp [hk]) (by simp [hk]) ?_ ?_
  · simp only [leNat, Model.X25519.leNat_snoc, hk]
    omega
  · simp only [leNat, Model.X25519.leNat_snoc, hp]
    congr 1
    omega

/-- A concrete instance of the hypotheses with all ignored bits different. -/
example : (∀ i, i < 7 → (0x80 : U8).getLsbD i = (0x00 : U8).getLsbD i) ∧
    (∀ i, 3 ≤ i → i < 8 → (0xff : U8).getLsbD i = (0xf8 : U8).getLsbD i) ∧
    (∀ i, i < 6 → (0x3f : U8).getLsbD i = (0xff : U8).getLsbD i) := by decide

/-- Non-canonical encodings of 1 collide with the canonical one: `p + 1` and `1`. -/
example : leNat (toLE 32 (2 ^ 255 - 18)) % 2 ^ 255 % (2 ^ 255 - 19) = leNat (toLE 32 1) % 2 ^ 255 % (2 ^ 255 - 19) := by
  decide +kernel

/-! ## C39 -/

/-- C39. Outputs are 32 bytes encoding a number below `2^255 - 19`. -/
theorem C39_output_canonical (m : Mode) (pk sk out : Bytes) (h : Model.X25519.dh m pk sk = some out) :
    out.length = 32 ∧ leNat out < 2 ^ 255 - 19 := by
  have hl : pk.length = 32 ∧ sk.length = 32 := by
    by_contra hc
    rw [(C35_dh_panics m pk sk).1.mpr (by tauto)] at h
    cases h
  rw [(C35_dh_rfc7748 m pk sk hl.1 hl.2).1] at h
  obtain rfl := Option.some.inj h
  refine ⟨by simp [x25519, encodeU], ?_⟩
  rw [x25519, encodeU, leNat_toLE]
  exact lt_of_le_of_lt (Nat.mod_le _ _) (ZMod.val_lt _)

example : ∃ out, Model.X25519.dh .debug (9 :: zeros 31) (zeros 32) = some out :=
  ⟨_, (C35_dh_rfc7748 _ _ _ (by decide) (by decide)).1⟩

/-! ## C40 -/

/-- Doubling of projective u-coordinates, as integers modulo `p`. -/
def dblI (q : Int × Int) : Int × Int :=
  ((q.1 ^ 2 - q.2 ^ 2) ^ 2 % p25519, 4 * q.1 * q.2 * (q.1 ^ 2 + 486662 * q.1 * q.2 + q.2 ^ 2) % p25519)

theorem cast_mod (x : Int) : ((x % (p25519 : Nat) : Int) : F) = (x : F) := ZMod.intCast_mod x p25519

theorem dblI_rep {K : Type*} [Field K] [DecidableEq K] [Algebra F K] {q : Int × Int} {Q : (curve (486662 : K)).Point}
    (h : Rep (algebraMap F K q.1) (algebraMap F K q.2) Q) :
    Rep (algebraMap F K (dblI q).1) (algebraMap F K (dblI q).2) (Q + Q) := by
  have := rep_dbl two_ne' A_ne' h
  unfold dblI
  simp only
  rw [cast_mod, cast_mod]
  convert this using 1
  · simp only [Int.cast_sub, Int.cast_pow, map_sub, map_pow]
  · simp only [Int.cast_mul, Int.cast_add, Int.cast_pow, Int.cast_ofNat, map_mul, map_add, map_pow, map_ofNat]

/-- The u-coordinates of small order: 0, 1, -1 and two of order 8. -/
def smallOrder : List Nat :=
  [0, 1, 325606250916557431795983626356110631294008115727848805560023387167927233504,
   39382357235489614581723060781553021112529911719440698176882885853963445705823, 2 ^ 255 - 20]

theorem small_dbl : smallOrder.all (fun u => (dblI (dblI (dblI ((u : Int), 1)))).2 == 0) = true := by
  unfold dblI
  rw [Model.Fe.p25519_eq]
  decide +kernel

/-- C40. If the public key encodes (canonically or not) one of the small-order u-coordinates, `dh` returns 32 zero
bytes for every secret key. -/
theorem C40_small_order_gives_zero (m : Mode) (pk sk : Bytes) (h1 : pk.length = 32) (h2 : sk.length = 32)
    (hs : leNat pk % 2 ^ 255 % (2 ^ 255 - 19) ∈ smallOrder) : Model.X25519.dh m pk sk = some (zeros 32) := by
  classical
  let K := AlgebraicClosure F
  obtain ⟨P, hP0, hP⟩ := C36_every_u_is_a_point (K := K) (decodeU pk)
  have h8 : (8 : Nat) • P = 0 := by
    have hc := List.all_eq_true.mp small_dbl _ hs
    simp only [beq_iff_eq] at hc
    generalize hu : leNat pk % 2 ^ 255 % (2 ^ 255 - 19) = u at *
    have hd : decodeU pk = ((u : Int) : F) := by
      rw [Int.cast_natCast, decodeU, ← hu]
      exact nat_eq (Nat.mod_mod _ _).symm
    have r0 : Rep (algebraMap F K (((u : Int), (1 : Int)).1 : Int)) (algebraMap F K (((u : Int), (1 : Int)).2 : Int)) P := by
      match P, hP0, hP with
      | .zero, hP0, _ => exact absurd rfl hP0
      | .some x y hn, _, hP =>
        refine ⟨by simp, ?_⟩
        simp only [Int.cast_one, map_one, mul_one]
        rw [← hd]
        exact hP.symm
    have r3 := dblI_rep (dblI_rep (dblI_rep r0))
    rw [hc] at r3
    have e8 : (8 : Nat) • P = P + P + (P + P) + (P + P + (P + P)) := by
      rw [show (8 : Nat) = 1 + 1 + (1 + 1) + (1 + 1 + (1 + 1)) by norm_num, add_smul, add_smul, add_smul, one_smul]
    rw [← e8] at r3
    revert r3
    cases (8 : Nat) • P with
    | zero => intro _; rfl
    | some x y hn => intro r3; exact absurd (by simp) r3.1
  have key := ladder_spec (decodeScalar_lt sk) (decodeU pk) P hP
  have hk : decodeScalar sk = (leNat sk % 2 ^ 254 / 8 + 2 ^ 251) * 8 := by unfold decodeScalar; omega
  rw [hk, ← smul_smul, h8, smul_zero, ← hk] at key
  have h0 : ladder (decodeScalar sk) (decodeU pk) = 0 := by
    apply (algebraMap F K).injective
    rw [key, map_zero]
    rfl
  rw [(C35_dh_rfc7748 m pk sk h1 h2).1, x25519, h0, encodeU, ZMod.val_zero]
  rfl

/-- The non-canonical encoding of `p + 1` and a point of order 8 meet the hypothesis. -/
example : leNat (toLE 32 (2 ^ 255 - 18)) % 2 ^ 255 % (2 ^ 255 - 19) ∈ smallOrder ∧
    leNat (toLE 32 325606250916557431795983626356110631294008115727848805560023387167927233504) % 2 ^ 255 %
      (2 ^ 255 - 19) ∈ smallOrder := by decide +kernel

/-! ## Further concrete cases -/

/-- A key of the wrong length panics, one of 32 bytes does not. -/
example : Model.X25519.dh .release (zeros 31) (zeros 32) = none ∧ Model.X25519.genPk .release (zeros 33) = none ∧
    Model.X25519.dh .release (zeros 32) (zeros 32) ≠ none :=
  ⟨(C35_dh_panics .release _ _).1.mpr (.inl (by decide)), (C35_dh_panics .release (zeros 32) _).2.mpr (by decide),
    fun h => by rcases (C35_dh_panics .release _ _).1.mp h with h | h <;> exact h (by decide)⟩

/-- The base point, over the field itself. -/
example : ∃ P : (curve (486662 : F)).Point, P ≠ 0 ∧ ∃ out, Model.X25519.dh .debug (9 :: zeros 31) (zeros 32) = some out ∧
    decodeU out = x0 (decodeScalar (zeros 32) • P) := by
  have ⟨P, hP, hx⟩ : ∃ P : (curve (486662 : F)).Point, P ≠ 0 ∧ x0 P = algebraMap F F (decodeU (9 :: zeros 31)) := basePointCase
  obtain ⟨out, h1, -, h2⟩ := C36_dh_is_scalar_multiplication .debug (K := F) (9 :: zeros 31) (zeros 32) (by decide) (by decide) P hx
  exact ⟨P, hP, out, h1, h2⟩

/-- A point of the twist (2 is not the coordinate of a point over the field) appears over the algebraic closure. -/
example : ∃ P : (curve (486662 : AlgebraicClosure F)).Point, P ≠ 0 ∧ x0 P = algebraMap F (AlgebraicClosure F) 2 := by
  classical exact C36_every_u_is_a_point 2

/-- Commutation with the peer's value not a public key: a point of the twist. -/
example : ∃ ua ub s, Model.X25519.dh .debug (2 :: zeros 31) (zeros 32) = some ua ∧
    Model.X25519.dh .debug (2 :: zeros 31) (List.replicate 32 7) = some ub ∧
    Model.X25519.dh .debug ua (List.replicate 32 7) = some s ∧ Model.X25519.dh .debug ub (zeros 32) = some s :=
  C37_dh_commutes .debug _ _ _ (by decide) (by decide) (by decide)

example : ∃ pa pb s, Model.X25519.genPk .release (zeros 32) = some pa ∧ Model.X25519.genPk .release (List.replicate 32 7) = some pb ∧
    Model.X25519.dh .release pa (List.replicate 32 7) = some s ∧ Model.X25519.dh .release pb (zeros 32) = some s :=
  C37_key_agreement .release _ _ (by decide) (by decide)

/-- `p + 1` and 1 are the same public key; secret keys that differ in masked bits are the same. -/
example (m : Mode) : Model.X25519.dh m (toLE 32 (2 ^ 255 - 18)) (7 :: zeros 31) = Model.X25519.dh m (toLE 32 1) (0 :: zeros 30 ++ [0xc0]) :=
  C38_dh_depends_only_on m _ _ _ _ (by decide +kernel) (by decide +kernel) (by decide) (by decide) (by decide +kernel) (by decide +kernel)

example (m : Mode) (pmid kmid : Bytes) (hp : pmid.length = 30) (hk : kmid.length = 30) (p0 : U8) :
    Model.X25519.dh m (p0 :: (pmid ++ [0x00])) (0xff :: (kmid ++ [0x3f])) =
      Model.X25519.dh m (p0 :: (pmid ++ [0x80])) (0xf8 :: (kmid ++ [0xff])) :=
  C38_masked_bits_ignored m _ _ _ _ _ _ pmid kmid hp hk (by decide) (by decide) (by decide) p0

example : ∃ out, Model.X25519.dh .debug (List.replicate 32 255) (zeros 32) = some out ∧ out.length = 32 ∧ leNat out < 2 ^ 255 - 19 := by
  have h := (C35_dh_rfc7748 .debug (List.replicate 32 255) (zeros 32) (by decide) (by decide)).1
  exact ⟨_, h, C39_output_canonical .debug _ _ _ h⟩

example (sk : Bytes) (h : sk.length = 32) : Model.X25519.dh .debug (toLE 32 (2 ^ 255 - 20)) sk = some (zeros 32) :=
  C40_small_order_gives_zero .debug _ sk (by decide +kernel) h (by decide +kernel)

end CryptoPure.Props.X25519
