import Verif.Proofs.PrimeL
import Verif.Props.ChaChaPoly
import Mathlib.Algebra.Polynomial.Roots

/-! Poly1305 is almost universal, the code's faulty final reduction included. -/

namespace CryptoPure.Proofs.Poly1305Universal
open Polynomial
open CryptoPure.Spec.Poly1305 (P)
open CryptoPure.Props (wrongReduction)

theorem prime_3134801 : Nat.Prime 3134801 := by norm_num
theorem prime_4024685905107147541 : Nat.Prime 4024685905107147541 := by
  refine Prime.lucas _ 2 [2, 2, 3, 3, 5, 13, 43, 4889, 37003, 221101] (by norm_num) ?_ (by norm_num) (by norm_num)
    (by decide +kernel) (by decide +kernel)
  · simp only [List.forall_mem_cons, List.not_mem_nil, false_imp_iff, implies_true, and_true]
    norm_num
theorem prime_897064739519922787230182993783 : Nat.Prime 897064739519922787230182993783 :=
  Prime.pocklington (q := 4024685905107147541) (m := 222890620702) (a := 2) (b := 779171088784275230984760184720)
    prime_4024685905107147541 (by norm_num) (by norm_num) (by norm_num) (by decide +kernel) (by decide +kernel)
theorem prime_P : Nat.Prime P :=
  Prime.pocklington (q := 897064739519922787230182993783) (m := 1517314646) (a := 2)
    (b := 15340630709746432533628977078564628162)
    prime_897064739519922787230182993783 (by decide +kernel) (by decide +kernel) (by decide +kernel) (by decide +kernel) (by decide +kernel)

instance : Fact (Nat.Prime P) := ⟨prime_P⟩

/-! ### The error of the final reduction -/

/-- What the faulty reduction adds to the accumulator, modulo `2^128`: nothing, or one of sixteen constants. -/
def errors : List Nat :=
  [0, 250, 252, 65274, 65276, 16711418, 16711420, 338947926266346547920380981520271081210,
   338947926266346547920380981520271081212, 2 ^ 128 - 16843014, 2 ^ 128 - 16843012, 2 ^ 128 - 65798, 2 ^ 128 - 65796,
   2 ^ 128 - 262, 2 ^ 128 - 260, 2 ^ 128 - 6, 2 ^ 128 - 4]

/-- A byte with its low bit taken from another one. -/
def mixN (hi lo : Nat) : Nat := ((BitVec.ofNat 8 hi &&& 0xfe) ||| (BitVec.ofNat 8 lo &&& 1) : U8).toNat

def W (k x y : Nat) : Nat := leNat (List.zipWith (fun hi lo : U8 => (hi &&& 0xfe) ||| (lo &&& 1)) (toLE k x) (toLE k y))

theorem W_succ (k x y : Nat) : W (k + 1) x y = mixN x y + 256 * W k (x / 256) (y / 256) := rfl

theorem mixN_mod (x y : Nat) : mixN x y = mixN (x % 256) (y % 256) := by
  unfold mixN
  rw [show BitVec.ofNat 8 x = BitVec.ofNat 8 (x % 256) by apply BitVec.eq_of_toNat_eq; simp,
    show BitVec.ofNat 8 y = BitVec.ofNat 8 (y % 256) by apply BitVec.eq_of_toNat_eq; simp]

theorem mix_facts : ∀ y : Fin 256, mixN y y = y ∧
    (5 ≤ y.1 → mixN (y - 5) y + 6 = y ∨ mixN (y - 5) y + 4 = y) ∧
    (y.1 < 5 → mixN (y + 251) y = y + 250 ∨ mixN (y + 251) y = y + 252) ∧
    (1 ≤ y.1 → mixN (y - 1) y + 2 = y ∨ mixN (y - 1) y = y) ∧ (y.1 = 0 → mixN 255 y = 254) := by
  decide +kernel

theorem W_same (k x y : Nat) (h : x % 256 ^ k = y % 256 ^ k) : W k x y = y % 256 ^ k := by
  induction k generalizing x y with
  | zero => simp [W, toLE, leNat, Nat.mod_one]
  | succ k ih =>
    have h0 : x % 256 = y % 256 := by
      have := congrArg (· % 256) h
      simpa [pow_succ, Nat.mod_mul_left_mod] using this
    have h1 : x / 256 % 256 ^ k = y / 256 % 256 ^ k := by
      have := congrArg (· / 256) h
      simp only [pow_succ, mul_comm _ 256] at this
      rwa [Nat.mod_mul_right_div_self, Nat.mod_mul_right_div_self] at this
    rw [W_succ, ih _ _ h1, mixN_mod, h0, (mix_facts ⟨y % 256, by omega⟩).1, pow_succ, mul_comm (256 ^ k) 256, Nat.mod_mul]

theorem wrong_error (a : Nat) (ha : a < 2 ^ 31) :
    ∃ e ∈ errors, leNat (wrongReduction a) % 2 ^ 128 = (a + e) % 2 ^ 128 := by
  change ∃ e ∈ errors, W 16 (a + (2 ^ 130 - 5)) a % 2 ^ 128 = (a + e) % 2 ^ 128
  rcases Nat.lt_or_ge a 5 with h5 | h5
  · interval_cases a <;> decide +kernel
  obtain ⟨c, hc⟩ : ∃ c, a + (2 ^ 130 - 5) = c := ⟨_, rfl⟩
  rw [hc]
  have f0 := mix_facts ⟨a % 256, by omega⟩
  have f1 := mix_facts ⟨a / 256 % 256, by omega⟩
  have f2 := mix_facts ⟨a / 256 / 256 % 256, by omega⟩
  have f3 := mix_facts ⟨a / 256 / 256 / 256 % 256, by omega⟩
  simp only at f0 f1 f2 f3
  have w0 : W 16 c a = _ := W_succ 15 c a
  have w1 : W 15 _ _ = _ := W_succ 14 (c / 256) (a / 256)
  have w2 : W 14 _ _ = _ := W_succ 13 (c / 256 / 256) (a / 256 / 256)
  have w3 : W 13 _ _ = _ := W_succ 12 (c / 256 / 256 / 256) (a / 256 / 256 / 256)
  rw [mixN_mod] at w0 w1 w2 w3
  rcases Nat.lt_or_ge (a % 256) 5 with g0 | g0
  · rw [show c % 256 = a % 256 + 251 by omega] at w0
    have e0 := f0.2.2.1 g0
    rcases Nat.eq_zero_or_pos (a / 256 % 256) with g1 | g1
    · rw [show c / 256 % 256 = 255 by omega, f1.2.2.2.2 g1] at w1
      rcases Nat.eq_zero_or_pos (a / 256 / 256 % 256) with g2 | g2
      · rw [show c / 256 / 256 % 256 = 255 by omega, f2.2.2.2.2 g2] at w2
        rw [show c / 256 / 256 / 256 % 256 = a / 256 / 256 / 256 % 256 - 1 by omega,
          W_same 12 _ _ (by omega)] at w3
        have e3 := f3.2.2.2.1 (by omega)
        rcases e0 with e0 | e0 <;> rcases e3 with e3 | e3
        · exact ⟨2 ^ 128 - 16843014, by decide, by omega⟩
        · exact ⟨16711418 + 0, by decide, by omega⟩
        · exact ⟨2 ^ 128 - 16843012, by decide, by omega⟩
        · exact ⟨16711420 + 0, by decide, by omega⟩
      · rw [show c / 256 / 256 % 256 = a / 256 / 256 % 256 - 1 by omega, W_same 13 _ _ (by omega)] at w2
        have e2 := f2.2.2.2.1 (by omega)
        rcases e0 with e0 | e0 <;> rcases e2 with e2 | e2
        · exact ⟨2 ^ 128 - 65798, by decide, by omega⟩
        · exact ⟨65274, by decide, by omega⟩
        · exact ⟨2 ^ 128 - 65796, by decide, by omega⟩
        · exact ⟨65276, by decide, by omega⟩
    · rw [show c / 256 % 256 = a / 256 % 256 - 1 by omega, W_same 14 _ _ (by omega)] at w1
      have e1 := f1.2.2.2.1 (by omega)
      rcases e0 with e0 | e0 <;> rcases e1 with e1 | e1
      · exact ⟨2 ^ 128 - 262, by decide, by omega⟩
      · exact ⟨250, by decide, by omega⟩
      · exact ⟨2 ^ 128 - 260, by decide, by omega⟩
      · exact ⟨252, by decide, by omega⟩
  · rw [show c % 256 = a % 256 - 5 by omega, W_same 15 _ _ (by omega)] at w0
    rcases f0.2.1 g0 with e0 | e0
    · exact ⟨2 ^ 128 - 6, by decide, by omega⟩
    · exact ⟨2 ^ 128 - 4, by decide, by omega⟩

/-! ### The polynomial -/

/-- The number a block contributes, in the field. -/
def num (b : Bytes) : ZMod P := ((leNat (b ++ [1]) : Nat) : ZMod P)

noncomputable def poly (bs : List Bytes) : (ZMod P)[X] := bs.foldl (fun p b => (p + C (num b)) * X) 0

theorem poly_snoc (bs : List Bytes) (b : Bytes) : poly (bs ++ [b]) = (poly bs + C (num b)) * X := by
  unfold poly; rw [List.foldl_append]; rfl

theorem accumulate_snoc (r : Nat) (bs : List Bytes) (b : Bytes) :
    Spec.Poly1305.accumulate r (bs ++ [b]) = (r * (Spec.Poly1305.accumulate r bs + leNat (b ++ [1]))) % P := by
  unfold Spec.Poly1305.accumulate; rw [List.foldl_append]; rfl

theorem eval_poly (r : Nat) (bs : List Bytes) :
    (poly bs).eval (r : ZMod P) = (Spec.Poly1305.accumulate r bs : ZMod P) := by
  induction bs using List.reverseRecOn with
  | nil => simp [poly, Spec.Poly1305.accumulate]
  | append_singleton bs b ih =>
    rw [poly_snoc, eval_mul, eval_add, eval_C, eval_X, ih, accumulate_snoc, ZMod.natCast_mod]
    unfold num
    push_cast
    ring

theorem accumulate_lt (r : Nat) (bs : List Bytes) : Spec.Poly1305.accumulate r bs < P := by
  rcases List.eq_nil_or_concat bs with rfl | ⟨cs, c, rfl⟩
  · exact prime_P.pos
  · rw [List.concat_eq_append, accumulate_snoc]
    exact Nat.mod_lt _ prime_P.pos

theorem coeff_zero_poly (bs : List Bytes) : (poly bs).coeff 0 = 0 := by
  induction bs using List.reverseRecOn with
  | nil => rfl
  | append_singleton bs b ih => rw [poly_snoc, mul_coeff_zero, coeff_X_zero, mul_zero]

theorem natDegree_poly (bs : List Bytes) : (poly bs).natDegree ≤ bs.length := by
  induction bs using List.reverseRecOn with
  | nil => unfold poly; simp
  | append_singleton bs b ih =>
    rw [poly_snoc, List.length_append]
    refine (natDegree_mul_le).trans (Nat.add_le_add ?_ natDegree_X_le)
    exact (natDegree_add_le _ _).trans (max_le ih (by simp))

theorem block_num (b : Bytes) (hb : b.length = 16) : leNat (b ++ [1]) = leNat b + 2 ^ 128 := by
  rw [leNat_append, hb]; rfl

theorem num_ne_zero (b : Bytes) (hb : b.length = 16) : num b ≠ 0 := by
  have h1 := leNat_lt b
  rw [hb] at h1
  unfold num
  rw [Ne, ZMod.natCast_eq_zero_iff, block_num b hb]
  intro h
  have := Nat.le_of_dvd (by omega) h
  unfold P at this
  omega

theorem num_inj (b b' : Bytes) (hb : b.length = 16) (hb' : b'.length = 16) (h : num b = num b') : b = b' := by
  have h1 := leNat_lt b
  have h2 := leNat_lt b'
  rw [hb] at h1
  rw [hb'] at h2
  unfold num at h
  rw [ZMod.natCast_eq_natCast_iff', block_num b hb, block_num b' hb', Nat.mod_eq_of_lt (by unfold P; omega),
    Nat.mod_eq_of_lt (by unfold P; omega)] at h
  exact leNat_inj (by rw [hb, hb']) (by omega)

theorem poly_snoc_ne_zero (bs : List Bytes) (b : Bytes) (hb : b.length = 16) : poly (bs ++ [b]) ≠ 0 := by
  intro h
  rw [poly_snoc] at h
  have h := (mul_eq_zero.mp h).resolve_right X_ne_zero
  have h0 := congrArg (coeff · 0) h
  simp only [coeff_add, coeff_zero_poly, coeff_C_zero, zero_add, coeff_zero] at h0
  exact num_ne_zero b hb h0

theorem poly_inj (bs bs' : List Bytes) (h1 : ∀ b ∈ bs, b.length = 16) (h2 : ∀ b ∈ bs', b.length = 16)
    (h : poly bs = poly bs') : bs = bs' := by
  induction bs using List.reverseRecOn generalizing bs' with
  | nil =>
    rcases List.eq_nil_or_concat bs' with rfl | ⟨cs, c, rfl⟩
    · rfl
    · rw [List.concat_eq_append] at *
      exact absurd h.symm (poly_snoc_ne_zero cs c (h2 c (by simp)))
  | append_singleton bs b ih =>
    rcases List.eq_nil_or_concat bs' with rfl | ⟨cs, c, rfl⟩
    · exact absurd h (poly_snoc_ne_zero bs b (h1 b (by simp)))
    · rw [List.concat_eq_append] at *
      rw [poly_snoc, poly_snoc] at h
      have h := mul_right_cancel₀ X_ne_zero h
      have h0 := congrArg (coeff · 0) h
      simp only [coeff_add, coeff_zero_poly, coeff_C_zero, zero_add] at h0
      rw [h0] at h
      rw [ih cs (fun x hx => h1 x (by simp [hx])) (fun x hx => h2 x (by simp [hx])) (add_right_cancel h),
        num_inj b c (h1 b (by simp)) (h2 c (by simp)) h0]

theorem macData_length (a c : Bytes) :
    (Spec.Poly1305.macData a c).length = 16 * ((a.length + 15) / 16 + (c.length + 15) / 16 + 1) := by
  unfold Spec.Poly1305.macData Spec.Poly1305.pad16
  simp only [List.length_append, toLE_length, zeros_length]
  omega

/-! ### The set of keys -/

/-- The differences of two errors. -/
def diffs : Finset Nat := ((errors.product errors).map (fun e => (e.2 + 2 ^ 128 - e.1) % 2 ^ 128)).toFinset

theorem diffs_card : diffs.card = 185 := by decide +kernel

theorem errors_lt : ∀ e ∈ errors, e < 2 ^ 128 := by decide +kernel

/-- The differences of accumulators that are compatible with a pair of tags. -/
def targets (t t' : Nat) : Finset (ZMod P) :=
  (diffs ×ˢ Finset.range 8).image
    (fun x => (((t + 2 ^ 128 - t' + x.1) % 2 ^ 128 + 2 ^ 128 * x.2 : Nat) : ZMod P) - ((2 ^ 130 : Nat) : ZMod P))

theorem targets_card (t t' : Nat) : (targets t t').card ≤ 1480 := by
  refine Finset.card_image_le.trans ?_
  rw [Finset.card_product, diffs_card, Finset.card_range]

set_option maxRecDepth 20000 in
attribute [local irreducible] P in
theorem mem_targets (t t' a a' s e e' : Nat) (ha : a < P) (ha' : a' < P) (he : e ∈ errors) (he' : e' ∈ errors)
    (ht' : t' < 2 ^ 128) (hP : P = 2 ^ 130 - 5)
    (h : t % 2 ^ 128 = (a + e + s) % 2 ^ 128) (h' : t' % 2 ^ 128 = (a' + e' + s) % 2 ^ 128) :
    (a : ZMod P) - (a' : ZMod P) ∈ targets t t' := by
  have l := errors_lt e he
  have l' := errors_lt e' he'
  have hd : (e' + 2 ^ 128 - e) % 2 ^ 128 ∈ diffs := by
    unfold diffs
    rw [List.mem_toFinset, List.mem_map]
    exact ⟨(e, e'), List.mem_product.mpr ⟨he, he'⟩, rfl⟩
  generalize hx : (e' + 2 ^ 128 - e) % 2 ^ 128 = x at hd
  obtain ⟨q, hq⟩ : ∃ q, (a + 2 ^ 130 - a') / 2 ^ 128 = q := exists_eq'
  have hq8 : q < 8 := by omega
  rw [targets, Finset.mem_image]
  refine ⟨(x, q), Finset.mem_product.mpr ⟨hd, Finset.mem_range.mpr hq8⟩, ?_⟩
  have key : (t + 2 ^ 128 - t' + x) % 2 ^ 128 + 2 ^ 128 * q + a' = a + 2 ^ 130 := by omega
  have key := congrArg (Nat.cast : Nat → ZMod P) key
  rw [Nat.cast_add, Nat.cast_add a] at key
  simp only
  linear_combination key

theorem clamp_lt (r : Nat) : Spec.Poly1305.clamp r < P := by
  have : Spec.Poly1305.clamp r ≤ 0x0ffffffc0ffffffc0ffffffc0fffffff := Nat.and_le_right
  unfold P
  omega

theorem val_nat {r : Nat} (hr : r < P) : ((r : ZMod P)).val = r := ZMod.val_cast_of_lt hr

set_option maxRecDepth 20000 in
attribute [local irreducible] P in
/-- For different blocks and prescribed tags, few `r` give both tags. -/
theorem key_set (bs bs' : List Bytes) (t t' : Nat) (h1 : ∀ b ∈ bs, b.length = 16) (h2 : ∀ b ∈ bs', b.length = 16)
    (hne : bs ≠ bs') :
    ∃ S : Finset Nat, S.card ≤ 1480 * max bs.length bs'.length ∧ ∀ r, r < P →
      (Spec.Poly1305.accumulate r bs : ZMod P) - (Spec.Poly1305.accumulate r bs' : ZMod P) ∈ targets t t' → r ∈ S := by
  classical
  let Q : ZMod P → (ZMod P)[X] := fun d => poly bs - poly bs' - C d
  have hQ : ∀ d, Q d ≠ 0 := by
    intro d h0
    have h := congrArg (coeff · 0) h0
    simp only [Q, coeff_sub, coeff_zero_poly, coeff_C_zero, coeff_zero, zero_sub, sub_zero, neg_eq_zero] at h
    simp only [Q, h, map_zero, sub_zero, sub_eq_zero] at h0
    exact hne (poly_inj bs bs' h1 h2 h0)
  refine ⟨((targets t t').biUnion (fun d => (Q d).roots.toFinset)).image ZMod.val, ?_, ?_⟩
  · refine Finset.card_image_le.trans ((Finset.card_biUnion_le_card_mul _ _ (max bs.length bs'.length) ?_).trans
      (Nat.mul_le_mul_right _ (targets_card t t')))
    intro d _
    refine (Multiset.toFinset_card_le _).trans ((card_roots' _).trans ?_)
    refine (natDegree_sub_le _ _).trans (max_le ((natDegree_sub_le _ _).trans (max_le_max ?_ ?_)) (by simp))
    · exact natDegree_poly _
    · exact natDegree_poly _
  · intro r hr hm
    rw [Finset.mem_image]
    refine ⟨(r : ZMod P), ?_, val_nat hr⟩
    rw [Finset.mem_biUnion]
    generalize hd : (Spec.Poly1305.accumulate r bs : ZMod P) - (Spec.Poly1305.accumulate r bs' : ZMod P) = d at hm
    refine ⟨d, hm, ?_⟩
    rw [Multiset.mem_toFinset, mem_roots (hQ _), IsRoot.def]
    simp only [Q, eval_sub, eval_C, eval_poly, hd, sub_self]

/-- Every tag the code computes is the accumulator plus one of the errors plus `s`. -/
theorem tag_error (m : Mode) (key data ct t : Bytes) (hk : key.length = 32)
    (h : Model.Poly1305.poly1305 m key data ct = some t) :
    ∃ e ∈ errors, leNat t % 2 ^ 128 = (Spec.Poly1305.acc key (Spec.Poly1305.macData data ct) + e + leNat (key.drop 16)) % 2 ^ 128 := by
  rcases Props.C29_cases key data ct hk with h1 | ⟨hlt, h1⟩
  · rw [h1 m] at h
    obtain rfl := Option.some.inj h
    refine ⟨0, by decide, ?_⟩
    unfold Spec.Poly1305.mac
    rw [leNat_toLE]
    omega
  · rw [h1 m] at h
    obtain rfl := Option.some.inj h
    obtain ⟨e, he, hw⟩ := wrong_error _ hlt
    refine ⟨e, he, ?_⟩
    rw [leNat_toLE]
    omega

end CryptoPure.Proofs.Poly1305Universal
