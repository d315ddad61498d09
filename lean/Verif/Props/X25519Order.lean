import Verif.Proofs.X25519Order

/-! # C54–C56: X25519 and the orders of points

`L` is the prime of RFC 7748 section 4.1 / RFC 8032 (the order of the base point). -/

namespace CryptoPure.Props.X25519
open WeierstrassCurve Montgomery Spec Spec.X25519 CryptoPure.Ladder CryptoPure.MontOrder
open Spec.Ed25519 (L)

theorem encodeU_inj {x y : F} (h : encodeU x = encodeU y) : x = y := by
  rw [← decode_encode x, h, decode_encode]

theorem encodeU_zero : encodeU 0 = zeros 32 := by
  rw [encodeU, ZMod.val_zero]; rfl

/-- A clamped scalar is 8 times a number in `[2^251, 2^252)`. -/
theorem clamped (k : Bytes) : ∃ t, decodeScalar k = 8 * t ∧ 2 ^ 251 ≤ t ∧ t < 2 ^ 252 :=
  ⟨leNat k % 2 ^ 254 / 8 + 2 ^ 251, by unfold decodeScalar; omega, by omega, by omega⟩

theorem eq_mod {u : F} {n r : Nat} (hu : u = ((n : Nat) : F)) (h : u = ((r : Nat) : F)) (hr : r < p25519) : n % (2 ^ 255 - 19) = r := by
  rw [hu] at h
  have := (ZMod.natCast_eq_natCast_iff' n r p25519).mp h
  rwa [Nat.mod_eq_of_lt hr] at this

/-! ## C54 -/

/-- C54. `dh` returns the all-zero secret exactly for the five small-order u-coordinates: 0, 1, -1 and the two of
order 8. -/
theorem C54_zero_iff_small_order (m : Mode) (pk sk : Bytes) (h1 : pk.length = 32) (h2 : sk.length = 32) :
    Model.X25519.dh m pk sk = some (zeros 32) ↔ leNat pk % 2 ^ 255 % (2 ^ 255 - 19) ∈
      [0, 1, 2 ^ 255 - 20, 325606250916557431795983626356110631294008115727848805560023387167927233504,
        39382357235489614581723060781553021112529911719440698176882885853963445705823] := by
  classical
  constructor
  · intro h
    rw [(C35_dh_rfc7748 m pk sk h1 h2).1] at h
    have h0 : ladder (decodeScalar sk) (decodeU pk) = 0 := encodeU_inj (by rw [encodeU_zero]; exact Option.some.inj h)
    obtain ⟨P, hP0, hP⟩ := C36_every_u_is_a_point (K := AlgebraicClosure F) (decodeU pk)
    have key := ladder_spec (decodeScalar_lt sk) (decodeU pk) P hP
    obtain ⟨t, ht, ht1, ht2⟩ := clamped sk
    rw [h0, map_zero, ht] at key
    have h8 := killed8 hP0 hP (eight_of_zero hP (by omega) ht2 key.symm)
    have hd : decodeU pk = ((leNat pk % 2 ^ 255 : Nat) : F) := rfl
    rcases h8 with h | h | h | h | h
    · rw [eq_mod (r := 0) hd (by rw [h]; norm_num) (by norm_num [p25519])]; simp
    · rw [eq_mod (r := 1) hd (by rw [h]; norm_num) (by norm_num [p25519])]; simp
    · rw [eq_mod (r := 2 ^ 255 - 20) hd (by
        rw [h, show 2 ^ 255 - 20 = p25519 - 1 by norm_num [p25519], Nat.cast_sub (by norm_num [p25519]), ZMod.natCast_self]
        norm_num) (by norm_num [p25519])]; simp
    · rw [eq_mod hd h (by norm_num [p25519, u8]), u8]; simp
    · rw [eq_mod hd h (by norm_num [p25519, u8']), u8']; simp
  · intro h
    refine C40_small_order_gives_zero m pk sk h1 h2 ?_
    unfold smallOrder
    simp only [List.mem_cons, List.not_mem_nil, or_false] at h ⊢
    tauto

/-- C54. So whether the secret is all-zero does not depend on the secret key. -/
theorem C54_zero_independent_of_key (m : Mode) (pk sk sk' : Bytes) (h2 : sk'.length = 32)
    (h : Model.X25519.dh m pk sk = some (zeros 32)) : Model.X25519.dh m pk sk' = some (zeros 32) := by
  have hl : pk.length = 32 ∧ sk.length = 32 := by
    by_contra hc
    rw [(C35_dh_panics m pk sk).1.mpr (by tauto)] at h
    cases h
  rw [C54_zero_iff_small_order m pk _ hl.1 h2]
  exact (C54_zero_iff_small_order m pk sk hl.1 hl.2).mp h

/-- The base point is not of small order: the all-zero secret is not returned for it. -/
example : Model.X25519.dh .debug (9 :: zeros 31) (zeros 32) ≠ some (zeros 32) := by
  rw [Ne, C54_zero_iff_small_order _ _ _ (by decide) (by decide)]
  decide +kernel

/-! ## C55 -/

theorem decodeU_nine : decodeU (9 :: zeros 31) = 9 := by
  unfold decodeU
  rw [show leNat (9 :: zeros 31) % 2 ^ 255 = 9 by decide +kernel]
  rfl

theorem eq_or_neg {P Q : (curve (486662 : F)).Point} (hP : P ≠ 0) (hQ : Q ≠ 0) (h : x0 P = x0 Q) : P = Q ∨ P = -Q := by
  match P, Q, hP, hQ, h with
  | .zero, _, hP, _, _ => exact absurd rfl hP
  | .some _ _ _, .zero, _, hQ, _ => exact absurd rfl hQ
  | .some x y hn, .some x' y' hn', _, _, h =>
    have hx : x = x' := h
    subst hx
    have e := equation_iff.mp hn.1
    rw [← equation_iff.mp hn'.1] at e
    rcases sq_eq_sq_iff_eq_or_eq_neg.mp e with rfl | rfl
    · exact Or.inl rfl
    · right
      rw [Affine.Point.neg_some]
      simp only [negY_eq]

/-- A point of order `L` with u-coordinate 9. -/
theorem base_order : ∃ P : (curve (486662 : F)).Point, x0 P = 9 ∧ addOrderOf P = L := by
  obtain ⟨f, h1, h2, h3⟩ := to_curve (A := 486662) (by rw [Ed.c_sq]; norm_num)
  refine ⟨f Ed.G, h3, ?_⟩
  have h4 : ∀ n : Nat, f (n • Ed.G) = n • f Ed.G := by
    intro n
    induction n with
    | zero => rw [zero_nsmul, zero_nsmul, h2]
    | succ n ih => rw [succ_nsmul, succ_nsmul, h1, ih]
  have : Fact L.Prime := ⟨prime_L⟩
  refine addOrderOf_eq_prime (by rw [← h4, Ed.order_G, h2]) ?_
  intro h
  rw [h] at h3
  have h9 : (9 : F) = 0 := h3.symm
  have := nat_ne_zero (n := 9) (by norm_num) (by norm_num [p25519])
  exact this (by exact_mod_cast h9)

theorem L_not_dvd {t : Nat} (h0 : 0 < t) (ht : t < L) : ¬ L ∣ t := fun h => absurd (Nat.le_of_dvd h0 h) (by omega)

theorem L_not_dvd_mul {s t : Nat} (hs : ¬ L ∣ s) (ht : ¬ L ∣ t) : ¬ L ∣ s * t := by
  intro h
  rcases (Nat.Prime.dvd_mul prime_L).mp h with h | h
  · exact hs h
  · exact ht h

theorem L_not_dvd_scalar (k : Bytes) : ¬ L ∣ decodeScalar k := by
  obtain ⟨t, ht, h1, h2⟩ := clamped k
  rw [ht]
  have hL : L = 2 ^ 252 + 27742317777372353535851937790883648493 := rfl
  exact L_not_dvd_mul (L_not_dvd (by norm_num) (by omega)) (L_not_dvd (by omega) (by omega))

/-- Two multiples of the base point have the same u-coordinate exactly when the scalars agree up to sign modulo `L`. -/
theorem x0_eq_iff {P : (curve (486662 : F)).Point} (ho : addOrderOf P = L) {a b : Nat} (ha : ¬ L ∣ a) (hb : ¬ L ∣ b) :
    x0 (a • P) = x0 (b • P) ↔ (L : Int) ∣ a - b ∨ L ∣ a + b := by
  have hz : ∀ n : Nat, n • P = 0 ↔ L ∣ n := fun n => by rw [← ho, addOrderOf_dvd_iff_nsmul_eq_zero]
  have hzz : ∀ n : Int, n • P = 0 ↔ (L : Int) ∣ n := fun n => by rw [← ho, addOrderOf_dvd_iff_zsmul_eq_zero]
  have hsub : a • P = b • P ↔ (L : Int) ∣ a - b := by
    rw [← hzz, sub_smul, sub_eq_zero, natCast_zsmul, natCast_zsmul]
  have hadd : a • P = -(b • P) ↔ L ∣ a + b := by
    rw [← hz, add_smul, eq_neg_iff_add_eq_zero]
  rw [← hsub, ← hadd]
  constructor
  · intro h
    exact eq_or_neg (fun h => ha ((hz a).mp h)) (fun h => hb ((hz b).mp h)) h
  · rintro (h | h)
    · rw [h]
    · rw [h, x0_neg]

theorem genPk_eq (m : Mode) {sk : Bytes} (h : sk.length = 32) : Model.X25519.genPk m sk = some (encodeU (ladder (decodeScalar sk) 9)) := by
  rw [(C35_dh_rfc7748 m (zeros 32) sk (by decide) h).2, x25519, decodeU_nine]

theorem ladder_base {P : (curve (486662 : F)).Point} (hP : x0 P = 9) (k : Bytes) : ladder (decodeScalar k) 9 = x0 (decodeScalar k • P) :=
  ladder_spec (K := F) (decodeScalar_lt k) 9 P hP

theorem ladder_twice {P : (curve (486662 : F)).Point} (hP : x0 P = 9) (a b : Bytes) :
    ladder (decodeScalar b) (ladder (decodeScalar a) 9) = x0 ((decodeScalar b * decodeScalar a) • P) := by
  have h := ladder_base hP a
  revert h
  generalize ladder (decodeScalar a) 9 = u
  intro h
  have := ladder_spec (K := F) (decodeScalar_lt b) u (decodeScalar a • P) h.symm
  rw [mul_smul]
  exact this

/-- Differences and sums of clamped scalars divisible by `L`. -/
theorem clamped_dvd (a b : Bytes) : ((L : Int) ∣ decodeScalar a - decodeScalar b ∨ L ∣ decodeScalar a + decodeScalar b) ↔
    (decodeScalar a = decodeScalar b ∨ decodeScalar a + decodeScalar b = 8 * L) := by
  have hL : L = 2 ^ 252 + 27742317777372353535851937790883648493 := rfl
  obtain ⟨s, hs, s1, s2⟩ := clamped a
  obtain ⟨t, ht, t1, t2⟩ := clamped b
  rw [hs, ht]
  constructor
  · rintro (h | h)
    · left
      have h' : (L : Int) ∣ s - t := by
        have h8 : IsCoprime (L : Int) (8 : Nat) := by
          rw [Nat.isCoprime_iff_coprime]
          exact (Nat.Prime.coprime_iff_not_dvd prime_L).mpr (L_not_dvd (by norm_num) (by omega))
        refine h8.dvd_of_dvd_mul_left ?_
        push_cast at h ⊢
        rwa [mul_sub]
      obtain ⟨q, hq⟩ := h'
      have : q = 0 := by
        rcases lt_trichotomy q 0 with hn | h0 | hp
        · have : (L : Int) * q ≤ L * (-1) := by
            refine mul_le_mul_of_nonneg_left (by omega) (by omega)
          omega
        · exact h0
        · have : (L : Int) * 1 ≤ L * q := by
            refine mul_le_mul_of_nonneg_left (by omega) (by omega)
          omega
      rw [this, mul_zero] at hq
      omega
    · right
      rw [← mul_add] at h ⊢
      have h' : L ∣ s + t := ((Nat.Prime.dvd_mul prime_L).mp h).resolve_left (L_not_dvd (by norm_num) (by omega))
      obtain ⟨q, hq⟩ := h'
      have : q = 1 := by
        have h1 : q < 2 := by
          by_contra hc
          have : L * 2 ≤ L * q := Nat.mul_le_mul_left _ (by omega)
          omega
        have h2 : q ≠ 0 := by rintro rfl; omega
        omega
      rw [hq, this, mul_one]
  · rintro (h | h)
    · left
      have : s = t := by omega
      rw [this, sub_self]
      exact dvd_zero _
    · right
      rw [h]
      exact dvd_mul_left _ _

/-- C55. Exactly when two secret keys have the same public key: their clamped scalars are equal, or add up to `8 L`. -/
theorem C55_gen_pk_collisions (m : Mode) (a b : Bytes) (ha : a.length = 32) (hb : b.length = 32) :
    Model.X25519.genPk m a = Model.X25519.genPk m b ↔
      decodeScalar a = decodeScalar b ∨ decodeScalar a + decodeScalar b = 8 * L := by
  obtain ⟨P, hP, ho⟩ := base_order
  rw [genPk_eq m ha, genPk_eq m hb, ladder_base hP, ladder_base hP, ← clamped_dvd,
    ← x0_eq_iff ho (L_not_dvd_scalar a) (L_not_dvd_scalar b), Option.some_inj]
  exact ⟨encodeU_inj, congrArg _⟩

/-- The second case does occur. -/
example : ∃ a b : Bytes, a.length = 32 ∧ b.length = 32 ∧ decodeScalar a ≠ decodeScalar b ∧
    Model.X25519.genPk .debug a = Model.X25519.genPk .debug b := by
  refine ⟨zeros 32, toLE 32 (8 * 27742317777372353535851937790883648493), by decide, by simp, by decide +kernel, ?_⟩
  rw [C55_gen_pk_collisions _ _ _ (by decide) (by simp)]
  right
  rw [Spec.Ed25519.L_val]
  decide +kernel

/-- C55. A public key made by `gen_pk` never leads to the all-zero secret. -/
theorem C55_honest_secret_nonzero (m : Mode) (a b : Bytes) (ha : a.length = 32) (hb : b.length = 32) :
    ∃ pk s, Model.X25519.genPk m a = some pk ∧ Model.X25519.dh m pk b = some s ∧ s ≠ zeros 32 := by
  obtain ⟨P, hP, ho⟩ := base_order
  refine ⟨_, _, genPk_eq m ha, (C35_dh_rfc7748 m _ b (by simp [encodeU]) hb).1, ?_⟩
  intro h
  have h0 : ladder (decodeScalar b) (ladder (decodeScalar a) 9) = 0 := encodeU_inj (by
    rw [encodeU_zero, ← h, x25519, decode_encode])
  rw [ladder_twice hP] at h0
  have h3 := two_smul_of_x0 h0
  rw [← mul_smul, ← addOrderOf_dvd_iff_nsmul_eq_zero, ho] at h3
  have hL : L = 2 ^ 252 + 27742317777372353535851937790883648493 := rfl
  exact L_not_dvd_mul (L_not_dvd (by norm_num) (by omega)) (L_not_dvd_mul (L_not_dvd_scalar b) (L_not_dvd_scalar a)) h3

/-! ## C56 -/

/-- C56. Between keys made by `gen_pk`, the shared secret determines the peer's public key: two peers get the same secret
with the same party only if their public keys are equal. -/
theorem C56_secret_determines_peer (m : Mode) (a a' b : Bytes) (ha : a.length = 32) (ha' : a'.length = 32) (hb : b.length = 32) :
    ∃ pa pa' s s', Model.X25519.genPk m a = some pa ∧ Model.X25519.genPk m a' = some pa' ∧
      Model.X25519.dh m pa b = some s ∧ Model.X25519.dh m pa' b = some s' ∧ (s = s' ↔ pa = pa') := by
  obtain ⟨P, hP, ho⟩ := base_order
  refine ⟨_, _, _, _, genPk_eq m ha, genPk_eq m ha', (C35_dh_rfc7748 m _ b (by simp [encodeU]) hb).1,
    (C35_dh_rfc7748 m _ b (by simp [encodeU]) hb).1, ?_, fun h => by rw [h]⟩
  intro h
  rw [x25519, x25519, decode_encode, decode_encode] at h
  have h0 := encodeU_inj h
  rw [ladder_twice hP, ladder_twice hP] at h0
  have h2 := h0
  rw [x0_eq_iff ho (L_not_dvd_mul (L_not_dvd_scalar b) (L_not_dvd_scalar a))
    (L_not_dvd_mul (L_not_dvd_scalar b) (L_not_dvd_scalar a'))] at h2
  have hbc : Nat.Coprime L (decodeScalar b) := (Nat.Prime.coprime_iff_not_dvd prime_L).mpr (L_not_dvd_scalar b)
  rw [ladder_base hP, ladder_base hP, (x0_eq_iff ho (L_not_dvd_scalar a) (L_not_dvd_scalar a')).mpr]
  rcases h2 with h2 | h2
  · left
    refine (Nat.isCoprime_iff_coprime.mpr hbc).dvd_of_dvd_mul_left ?_
    push_cast at h2
    rwa [mul_sub]
  · right
    rw [← mul_add] at h2
    exact hbc.dvd_of_dvd_mul_left h2

example : ∃ s s', Model.X25519.genPk .debug (zeros 32) = some s ∧ Model.X25519.genPk .debug (toLE 32 8) = some s' ∧ s ≠ s' := by
  refine ⟨_, _, genPk_eq _ (by decide), genPk_eq _ (by simp), ?_⟩
  intro h
  have := (C55_gen_pk_collisions .debug (zeros 32) (toLE 32 8) (by decide) (by simp)).mp
    (by rw [genPk_eq _ (by decide), genPk_eq _ (by simp), h])
  revert this
  rw [Spec.Ed25519.L_val]
  decide +kernel

/-! ## Further concrete cases -/

example (sk sk' : Bytes) (h : sk.length = 32) (h' : sk'.length = 32) :
    Model.X25519.dh .debug (toLE 32 (2 ^ 255 - 20)) sk' = some (zeros 32) :=
  C54_zero_independent_of_key .debug _ sk sk' h'
    ((C54_zero_iff_small_order .debug _ _ (by decide +kernel) h).mpr (by decide +kernel))

example : ∃ pk s, Model.X25519.genPk .debug (zeros 32) = some pk ∧ Model.X25519.dh .debug pk (zeros 32) = some s ∧ s ≠ zeros 32 :=
  C55_honest_secret_nonzero .debug _ _ (by decide) (by decide)

example : ∃ pa pa' s s', Model.X25519.genPk .debug (zeros 32) = some pa ∧ Model.X25519.genPk .debug (toLE 32 8) = some pa' ∧
    Model.X25519.dh .debug pa (List.replicate 32 7) = some s ∧ Model.X25519.dh .debug pa' (List.replicate 32 7) = some s' ∧
    (s = s' ↔ pa = pa') :=
  C56_secret_determines_peer .debug _ _ _ (by decide) (by decide) (by decide)

end CryptoPure.Props.X25519
