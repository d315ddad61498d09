import Verif.Proofs.GF128Field
import Verif.Proofs.Gcm
import Mathlib.Algebra.Polynomial.Roots

/-! GHASH is almost universal: two different inputs have a prescribed difference of hashes under few keys. -/

namespace CryptoPure.Proofs.GHashUniversal
open CryptoPure.Spec.GF128 CryptoPure.Proofs.GHash CryptoPure.Proofs.GF128Field Polynomial
open CryptoPure.Spec.Gcm (bits bytes authBlocks)

theorem leNat_xor (a b : Bytes) (h : a.length = b.length) : leNat (xorBytes a b) = leNat a ^^^ leNat b := by
  induction a generalizing b with
  | nil => cases b with
    | nil => rfl
    | cons => simp at h
  | cons x xs ih =>
    cases b with
    | nil => simp at h
    | cons y ys =>
      have ih := ih ys (by simpa using h)
      unfold xorBytes at ih ⊢
      rw [List.zipWith_cons_cons, leNat, ih, leNat, leNat, BitVec.toNat_xor]
      have e1 : (x.toNat + 256 * leNat xs ^^^ (y.toNat + 256 * leNat ys)) % 2 ^ 8 = x.toNat ^^^ y.toNat := by
        have := x.isLt
        have := y.isLt
        rw [Nat.xor_mod_two_pow, show (x.toNat + 256 * leNat xs) % 2 ^ 8 = x.toNat by omega,
          show (y.toNat + 256 * leNat ys) % 2 ^ 8 = y.toNat by omega]
      have e2 : (x.toNat + 256 * leNat xs ^^^ (y.toNat + 256 * leNat ys)) / 2 ^ 8 = leNat xs ^^^ leNat ys := by
        have := x.isLt
        have := y.isLt
        rw [Nat.xor_div_two_pow, show (x.toNat + 256 * leNat xs) / 2 ^ 8 = leNat xs by omega,
          show (y.toNat + 256 * leNat ys) / 2 ^ 8 = leNat ys by omega]
      omega

theorem xorBytes_reverse (a b : Bytes) (h : a.length = b.length) :
    (xorBytes a b).reverse = xorBytes a.reverse b.reverse := by
  induction a generalizing b with
  | nil => simp [xorBytes]
  | cons x xs ih =>
    cases b with
    | nil => simp at h
    | cons y ys =>
      have hl : xs.length = ys.length := by simpa using h
      rw [List.reverse_cons, List.reverse_cons, xorBytes_append (by simp [hl]), ← ih ys hl]
      simp [xorBytes]

theorem bits_xor (a b : Bytes) (h : a.length = b.length) : bits (xorBytes a b) = bits a ^^^ bits b := by
  unfold bits beNat
  rw [xorBytes_reverse a b h, leNat_xor _ _ (by simp [h])]
  apply BitVec.eq_of_toNat_eq
  rw [BitVec.toNat_xor, BitVec.toNat_ofNat, BitVec.toNat_ofNat, BitVec.toNat_ofNat, Nat.xor_mod_two_pow]

theorem bits_bytes (x : BitVec 128) : bits (bytes x) = x := by
  unfold bits bytes
  rw [beNat_toBE]
  apply BitVec.eq_of_toNat_eq
  have := x.isLt
  rw [BitVec.toNat_ofNat]
  omega

theorem bytes_bits (x : Bytes) (h : x.length = 16) : bytes (bits x) = x := by
  unfold bits bytes
  have h1 := leNat_lt x.reverse
  rw [List.length_reverse, h] at h1
  apply beNat_inj (by simp [h])
  rw [beNat_toBE, BitVec.toNat_ofNat]
  unfold beNat at *
  omega

/-- The polynomial whose value at the hash key is the hash. -/
noncomputable def poly (bs : List Bytes) : K[X] := bs.foldl (fun p x => (p + C (elt (bits x))) * X) 0

theorem poly_snoc (bs : List Bytes) (b : Bytes) : poly (bs ++ [b]) = (poly bs + C (elt (bits b))) * X := by
  unfold poly; rw [List.foldl_append]; rfl

theorem eval_poly (h : BitVec 128) (bs : List Bytes) : (poly bs).eval (elt h) = elt (Spec.Gcm.ghash h bs) := by
  induction bs using List.reverseRecOn with
  | nil => unfold poly Spec.Gcm.ghash; simpa using elt_zero.symm
  | append_singleton bs b ih =>
    rw [poly_snoc, eval_mul, eval_add, eval_C, eval_X, ih]
    unfold Spec.Gcm.ghash
    rw [List.foldl_append, List.foldl_cons, List.foldl_nil, elt_mul, elt_xor]

theorem coeff_zero_poly (bs : List Bytes) : (poly bs).coeff 0 = 0 := by
  induction bs using List.reverseRecOn with
  | nil => rfl
  | append_singleton bs b ih => rw [poly_snoc, mul_coeff_zero, coeff_X_zero, mul_zero]

theorem natDegree_poly (bs : List Bytes) : (poly bs).natDegree ≤ bs.length := by
  induction bs using List.reverseRecOn with
  | nil => unfold poly; simp
  | append_singleton bs b ih =>
    rw [poly_snoc, List.length_append]
    refine (natDegree_mul_le).trans (Nat.add_le_add ?_ natDegree_X_le)
    exact (natDegree_add_le _ _).trans (max_le ih (by simp))

theorem snoc_inj {bs bs' : List Bytes} {b b' : Bytes} (h : poly (bs ++ [b]) = poly (bs' ++ [b'])) :
    poly bs = poly bs' ∧ elt (bits b) = elt (bits b') := by
  rw [poly_snoc, poly_snoc] at h
  have h := mul_right_cancel₀ X_ne_zero h
  have h0 := congrArg (coeff · 0) h
  simp only [coeff_add, coeff_zero_poly, coeff_C_zero, zero_add] at h0
  rw [h0] at h
  exact ⟨add_right_cancel h, h0⟩

theorem bits_inj {b b' : Bytes} (hb : b.length = 16) (hb' : b'.length = 16) (h : elt (bits b) = elt (bits b')) :
    b = b' := by
  rw [← bytes_bits b hb, elt_injective h, bytes_bits b' hb']

theorem poly_inj (bs bs' : List Bytes) (hl : bs.length = bs'.length) (h1 : ∀ b ∈ bs, b.length = 16)
    (h2 : ∀ b ∈ bs', b.length = 16) (h : poly bs = poly bs') : bs = bs' := by
  induction bs using List.reverseRecOn generalizing bs' with
  | nil => exact (List.length_eq_zero_iff.mp hl.symm).symm
  | append_singleton bs b ih =>
    rcases List.eq_nil_or_concat bs' with rfl | ⟨cs, c, rfl⟩
    · simp at hl
    · rw [List.concat_eq_append] at *
      obtain ⟨e1, e2⟩ := snoc_inj h
      rw [ih cs (by simpa using hl) (fun x hx => h1 x (by simp [hx])) (fun x hx => h2 x (by simp [hx])) e1,
        bits_inj (h1 b (by simp)) (h2 c (by simp)) e2]

theorem authBlocks_mem (a c : Bytes) : ∀ b ∈ authBlocks a c, b.length = 16 := by
  unfold authBlocks
  refine chunks_mem_length (by omega) ?_
  have h1 := pad16_length a
  have h2 := pad16_length c
  simp only [List.length_append, toBE_length]
  omega

theorem authBlocks_length (a c : Bytes) :
    (authBlocks a c).length = (a.length + 15) / 16 + (c.length + 15) / 16 + 1 := by
  unfold authBlocks
  rw [chunks_length (by omega)]
  simp only [List.length_append, toBE_length, Spec.Gcm.pad16, zeros_length]
  omega

theorem poly_auth_inj (a c a' c' : Bytes) (ha : a.length < 2 ^ 61) (hc : c.length < 2 ^ 61) (ha' : a'.length < 2 ^ 61)
    (hc' : c'.length < 2 ^ 61) (h : poly (authBlocks a c) = poly (authBlocks a' c')) :
    authBlocks a c = authBlocks a' c' := by
  have h0 := h
  rw [authBlocks_eq, authBlocks_eq] at h0
  have hl := bits_inj (by simp) (by simp) (snoc_inj h0).2
  obtain ⟨h3, h4⟩ := List.append_inj hl (by simp)
  have hla : a.length = a'.length := by
    have := toBE_inj (by omega) (by omega) h3; omega
  have hlc : c.length = c'.length := by
    have := toBE_inj (by omega) (by omega) h4; omega
  exact poly_inj _ _ (by rw [authBlocks_length, authBlocks_length, hla, hlc]) (authBlocks_mem a c)
    (authBlocks_mem a' c') h

/-- For different authenticated inputs and prescribed tags, the hash keys that give both tags (with the same mask)
form a small set. -/
theorem tag_set (a c t a' c' t' : Bytes) (ha : a.length < 2 ^ 61) (hc : c.length < 2 ^ 61) (ha' : a'.length < 2 ^ 61)
    (hc' : c'.length < 2 ^ 61) (hne : authBlocks a c ≠ authBlocks a' c') :
    ∃ S : Finset Bytes, S.card ≤ max (authBlocks a c).length (authBlocks a' c').length ∧
      ∀ (F : Bytes → Bytes) (nonce : Bytes), (∀ x : Bytes, x.length = 16 → (F x).length = 16) → nonce.length = 12 →
        t = Spec.Gcm.tag F nonce a c → t' = Spec.Gcm.tag F nonce a' c' → F (zeros 16) ∈ S := by
  classical
  let P : K[X] := poly (authBlocks a c) - poly (authBlocks a' c') - C (elt (bits t) + elt (bits t'))
  have hP : P ≠ 0 := by
    intro h0
    have h1 := congrArg (coeff · 0) h0
    simp only [P, coeff_sub, coeff_zero_poly, coeff_C_zero, coeff_zero, zero_sub, sub_zero, neg_eq_zero] at h1
    simp only [P, h1, map_zero, sub_zero, sub_eq_zero] at h0
    exact hne (poly_auth_inj a c a' c' ha hc ha' hc' h0)
  refine ⟨P.roots.toFinset.image (fun y => bytes (Function.invFun elt y)), ?_, ?_⟩
  · refine Finset.card_image_le.trans ((Multiset.toFinset_card_le _).trans ((card_roots' P).trans ?_))
    refine (natDegree_sub_le _ _).trans (max_le ((natDegree_sub_le _ _).trans (max_le_max ?_ ?_)) (by simp))
    · exact natDegree_poly _
    · exact natDegree_poly _
  · intro F nonce hF hn ht ht'
    have hz := hF (zeros 16) (by simp)
    have hJ := hF (Spec.Gcm.J0 nonce) (by simp [Spec.Gcm.J0, hn])
    refine Finset.mem_image.mpr ⟨elt (bits (F (zeros 16))), ?_, ?_⟩
    · rw [Multiset.mem_toFinset, mem_roots hP, IsRoot.def]
      have key : ∀ u x y, u = Spec.Gcm.tag F nonce x y →
          (poly (authBlocks x y)).eval (elt (bits (F (zeros 16)))) = elt (bits u) + elt (bits (F (Spec.Gcm.J0 nonce))) := by
        intro u x y hu
        rw [hu, Spec.Gcm.tag, Gcm.gctr_single F _ _ (Gcm.bytes_length _), bits_xor _ _ (by rw [hJ, Gcm.bytes_length]),
          elt_xor, bits_bytes, eval_poly, add_assoc, two_zero, add_zero]
      simp only [P, eval_sub, eval_C, key t a c ht, key t' a' c' ht']
      have := two_zero (elt (bits t'))
      linear_combination (-1 : K) * this
    · rw [Function.leftInverse_invFun elt_injective, bytes_bits _ hz]

end CryptoPure.Proofs.GHashUniversal
