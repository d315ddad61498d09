import Verif.Proofs.GHash
import Verif.Proofs.Prime
import Mathlib.Tactic.NormNum.Prime
import Mathlib.GroupTheory.OrderOfElement
import Mathlib.LinearAlgebra.FreeModule.Finite.CardQuotient
import Mathlib.FieldTheory.Finite.Basic

/-! GF(2)[x]/(x^128+x^7+x^2+x+1) is a field: its ring of 2^128 elements contains an element (the class of `x`) of
multiplicative order 2^128 - 1, so every non-zero element is a power of it. -/

namespace CryptoPure.Proofs.GF128Field
open CryptoPure.Spec.GF128 CryptoPure.Proofs.GHash Polynomial
open CryptoPure.Spec.Gcm (mul)

/-- The blocks of `x^(2^k)`, `k = 0 .. 128`. -/
def chain : List (BitVec 128) :=
  [0x40000000000000000000000000000000, 0x20000000000000000000000000000000, 0x08000000000000000000000000000000,
   0x00800000000000000000000000000000, 0x00008000000000000000000000000000, 0x00000000800000000000000000000000,
   0x00000000000000008000000000000000, 0xe1000000000000000000000000000000, 0xa8020000000000000000000000000000,
   0x88800008000000000000000000000000, 0x80808000000000800000000000000000, 0x80008000800000000000000000008000,
   0x800000008000000080000000e1000000, 0x61000000000000005753840000000000, 0x13f3efc9753840000000000000000000,
   0x020aaa0aa8aaa0822a220a8020000000, 0x0ef71e969867f1888690888888008008, 0xe19e18aee34963c96361282a4b028061,
   0x785720fb8871865780a6b48cd90a96d1, 0x2d88cd0cb4ac0b531aa6aeed729aa8ed, 0x9d417fa61f65872a7bfa7acbff7bf580,
   0xb79a60390f91418442aac91ac0c52d88, 0xb2647d77e1a28de9c9ea5b79eac8a5c1, 0xb5a27b9f018a8b1cfbbd41a96f89b5c1,
   0xb812f046d6c9e958b286b56ae8251fe3, 0x9c32f33e16afd2976599aea96fd221dd, 0x22432c6ec1cdb55ab0ac8660bc1bdc34,
   0x941ccfc3a9964ef84c4fe3cac43f6f24, 0xca397a34a3f7eda541facf68c22c70a8, 0x98cb5ab9e31ce8915144b4e3dd7667d3,
   0x436f1cf28e241ddfe614f342cee58ccb, 0x0d447b1696790646493f8f4b277b3b06, 0x54a0a9601f5eee84180dcbba9950b41e,
   0x4de588da952e507bf0cc9d6c4404c373, 0x0e5e71bb22de5001fa5a4890bb4d8b53, 0x2ebb098302a3680ee4700e3207ecafcb,
   0x25e8ff5e0055dd90103d8b8387440d04, 0x7b26a5ce8f4657a57535ce5ae2784638, 0x1f65c18795b5cb8347f4051d1a5cd557,
   0xb07728cee03947744549a13f3a757ffb, 0x4853d688639329e8717b2f6dd12a2a18, 0x1557933238ec620a36cd08f5167dbbe5,
   0x9908abb046ebdee7cd32cdae007043e3, 0xa130c91a4110a1c770289d5e9ae5eb77, 0x377e04f142dcfd9b9269c56b9bbe01cb,
   0x12880c1a5d5b58be5660dae3faa1df26, 0x555ae6d0da8bc5d56299dd997c90508e, 0x78dcd0eef63684661385220e9be643f5,
   0xbf81d79b681eb87f1840494ee86d68c7, 0x0367b8429a883e1daf3134227831f3df, 0x6566f1bd032c6e16a7bd8d175a714cb2,
   0xdb2710668fd84d13ef212d779431aeb2, 0x692ed23988cad9c9b616ef174b65be90, 0xc4205b1a258cdd336c2c02e38ac11206,
   0xfa0946c96284c5d57dcd49e325281a3c, 0xef061d18dc8af3dfb2234ad1a349bf6f, 0xce981e35ae0dc847c9bd2c2ac24a402e,
   0x15aaeacec86144dd41e6280d88c02eed, 0xace9dbeef679a0728561f1422ee72528, 0x699b5ad1f25d14e6b4efade7522be0f9,
   0x2226150e1942b16745c23c5e41707c1e, 0x5cd315661f6f7bbb6ac191dcbf0f6b79, 0xf2176b4964a57635aeeafc7ec8362bbc,
   0x354f8595ec875581a181858074d4726f, 0x6f9945a9e519a7229d4c1ad657f8a686, 0xa6547e1b63494270c3d302b7670cb93e,
   0x3dc56ce9bea6fe2bca6ff45b8c7ea343, 0x292586a6284cd3aaff71fd2b15b5a4c7, 0x562ae9f5d02642d49f3f080f892211fd,
   0x56f0d1c87c63aaf697e28236338ff22e, 0xac39a95e530cbd2277395dde8852b4ef, 0x37e9d3f4379c3cbb93eb3b6a760e9f8c,
   0x9823eb3e3b72089f2fc8d277b8f0bf53, 0x766c05ab72402f4932fffedcecc06d63, 0xdd9aeca000210297bd81b9403e20d2df,
   0xc444a78bc0d634400d435612dac2483a, 0xbcdadc6d27d8d3006a2b6b6622812d7b, 0x4637bc74001c8ac45634538328c0f138,
   0x1bda5786f1695f2d9af1dbe0545f2955, 0x7669665f7c02c37891fe5392f858b75d, 0x5e27788143e15420ee953b2d4cabc59e,
   0x998fba95e3f81ac8dc9307fe6f5b2e53, 0xa2b722231ebd8221ce8e45a8984fcb49, 0xb7973bfd607323fbe0cdb2368da4a4a0,
   0x5d7a5bb02210b70099da0122a722059a, 0xdce474a33289001ef72dd81e9a11266b, 0x8c6972ea34058b59b86393058a266414,
   0x1c551edf5c813cb32fcf1e04e6e2613e, 0x60c42fb6d5fbf292b5c6075c2cf30349, 0x22a7bd56589f6535eceb3e533e052eaa,
   0xc3a11f9613e149e1bbc3d291e2e5b5dd, 0xdafac54f4c6070af51546f69082db61c, 0xe9cf1574d6a6c218a44126ca02a2dbf7,
   0xcd02d8e98804a38fb22677366a204261, 0xaa301e2ec7617120e63f1e30b044a6f9, 0xb9e65740d5fb553c4cbe107a85248c36,
   0xdebb046b71ae153b531960a283fb4702, 0x85411decb270c794db0fc890ae57de84, 0x2a8ab4d60f034a2465cf41f1ae393318,
   0x3ee39d1c6663f2ff6b6d5d7ca9119f45, 0xaa9c0a807dbcf3ad87daaf8dcc5846d1, 0x8fb58c8bff4cb5da373bf185927c0265,
   0x1b83535ac077e5b18c2005adca2c84e3, 0x197bce1a22310942bdaf34e3091a1d5f, 0x6464014e790495d59cea8d6913dcdf18,
   0xca7dbf9ff1d8d21aad0b4e3d18327547, 0xc5eaee4e263ddfe46d67af1a87e7fefd, 0x00205aed936cf7c3f91d09c7a2a92c2e,
   0xb8968f5ee66af5d7b914d75220e3eecd, 0xf07e05941a5bcd62b638ffd5e9a52bb0, 0x46a277ddd4228cdf113a49a16a5e509c,
   0x532f01730288c9b1109f231beb6440f7, 0xab26eafada1fbd6243b422e8d8c25ee3, 0x4aef7084e6966d3978addbe4a1b1af55,
   0x833547603428c348073beabf4366e57d, 0x16b7d35a6395d440e66daae62761d18e, 0xb9eeeca089f5e5ee762f6071fce745d7,
   0x35c8f66c4af0bdd7d08f3d474459b659, 0x36ee41547366d4d5ccf0d126e200c90c, 0xa3313c7cfac5a806ad5438287b8226fb,
   0x9de8f5fe47d524519fb0d52c96a68410, 0x60f2901470dd606182981d04b9186186, 0xa5ae586d815ec618867625c71e534d34,
   0x1994ed4a7cab35d7575149610cb2cb2c, 0x49f36de7140092dbae792410c38e38e3, 0x356dcf3ca28aebaedb6d75d7df7d75d7,
   0x5aa28a28514514518618618659659659, 0x25b6db6db6db6db64924924924924924, 0x40000000000000000000000000000000]

theorem chain_ok : (chain.zip chain.tail).all (fun p => mul p.1 p.1 == p.2) = true := by decide +kernel
theorem chain_length : chain.length = 129 := by decide +kernel

theorem elt_one : elt 0x80000000000000000000000000000000#128 = 1 := by
  have hR : ∀ i ∈ Finset.range 128, (0x80000000000000000000000000000000#128).getMsbD i = decide (i = 0) := by
    decide +kernel
  unfold elt
  rw [Finset.sum_congr rfl (fun i hi => by rw [hR i hi])]
  simp only [decide_eq_true_eq]
  rw [Finset.sum_ite_eq' (Finset.range 128) 0 (fun i => α ^ i), if_pos (by simp), pow_zero]

theorem elt_x : elt 0x40000000000000000000000000000000#128 = α := by
  have hR : ∀ i ∈ Finset.range 128, (0x40000000000000000000000000000000#128).getMsbD i = decide (i = 1) := by
    decide +kernel
  unfold elt
  rw [Finset.sum_congr rfl (fun i hi => by rw [hR i hi])]
  simp only [decide_eq_true_eq]
  rw [Finset.sum_ite_eq' (Finset.range 128) 1 (fun i => α ^ i), if_pos (by simp), pow_one]

theorem chain_zero : chain.getD 0 0 = 0x40000000000000000000000000000000#128 := rfl

theorem chain_succ (k : Nat) (hk : k < 128) : mul (chain.getD k 0) (chain.getD k 0) = chain.getD (k + 1) 0 := by
  have h := List.all_eq_true.mp chain_ok (chain.getD k 0, chain.getD (k + 1) 0) (by
    have hl := chain_length
    rw [List.mem_iff_getElem]
    refine ⟨k, by simp [hl]; omega, ?_⟩
    rw [List.getElem_zip, List.getElem_tail]
    simp [List.getD_eq_getElem?_getD, hl, show k < 129 by omega, show k + 1 < 129 by omega])
  simpa using h

theorem elt_chain (k : Nat) (hk : k ≤ 128) : elt (chain.getD k 0) = α ^ (2 ^ k) := by
  induction k with
  | zero => rw [chain_zero, elt_x, pow_zero, pow_one]
  | succ k ih =>
    rw [← chain_succ k (by omega), elt_mul, ih (by omega), ← pow_add, pow_succ]
    congr 1; omega

/-- The block of `x^e`, `e < 2^n`. -/
def powE (e : Nat) : Nat → BitVec 128
  | 0 => 0x80000000000000000000000000000000#128
  | n + 1 => if e.testBit n then mul (powE e n) (chain.getD n 0) else powE e n

theorem mod2 (e n : Nat) : e / 2 ^ n % 2 = (e.testBit n).toNat := by
  rw [Nat.testBit_eq_decide_div_mod_eq]; have := Nat.mod_two_eq_zero_or_one (e / 2 ^ n)
  rcases this with h | h <;> simp [h]

theorem elt_powE (e n : Nat) (hn : n ≤ 128) : elt (powE e n) = α ^ (e % 2 ^ n) := by
  induction n with
  | zero => rw [powE, elt_one, pow_zero, Nat.mod_one, pow_zero]
  | succ n ih =>
    rw [powE, Nat.mod_pow_succ, mod2]
    by_cases h : e.testBit n = true
    · rw [if_pos h, elt_mul, ih (by omega), elt_chain n (by omega), h, pow_add]; simp
    · rw [if_neg h, ih (by omega), show e.testBit n = false by simpa using h]; simp

/-- The prime factors of `2^128 - 1`. -/
def factors : List Nat := [3, 5, 17, 257, 641, 65537, 274177, 6700417, 67280421310721]

theorem factors_ok : factors.all (fun q => powE ((2 ^ 128 - 1) / q) 128 != 0x80000000000000000000000000000000#128) =
    true := by decide +kernel


theorem prime_67280421310721 : Nat.Prime 67280421310721 := by
  refine Prime.lucas _ 3 [2, 2, 2, 2, 2, 2, 2, 2, 5, 47, 373, 2998279] (by norm_num) ?_ (by norm_num) (by norm_num)
    (by decide +kernel) (by decide +kernel)
  · simp only [List.forall_mem_cons, List.not_mem_nil, false_imp_iff, implies_true, and_true]
    norm_num

theorem prime_factor {q : Nat} (hq : q.Prime) (h : q ∣ 2 ^ 128 - 1) : q ∈ factors := by
  rw [show 2 ^ 128 - 1 = 3 * (5 * (17 * (257 * (641 * (65537 * (274177 * (6700417 * 67280421310721))))))) by norm_num] at h
  have key : ∀ p n : Nat, p.Prime → q ∣ p * n → q = p ∨ q ∣ n := fun p n hp h =>
    ((Nat.Prime.dvd_mul hq).mp h).imp (fun h => (Nat.prime_dvd_prime_iff_eq hq hp).mp h) id
  unfold factors
  simp only [List.mem_cons, List.not_mem_nil, or_false]
  rcases key _ _ (by norm_num) h with h | h; · simp [h]
  rcases key _ _ (by norm_num) h with h | h; · simp [h]
  rcases key _ _ (by norm_num) h with h | h; · simp [h]
  rcases key _ _ (by norm_num) h with h | h; · simp [h]
  rcases key _ _ (by norm_num) h with h | h; · simp [h]
  rcases key _ _ (by norm_num) h with h | h; · simp [h]
  rcases key _ _ (by norm_num) h with h | h; · simp [h]
  rcases key _ _ (by norm_num) h with h | h; · simp [h]
  have := (Nat.prime_dvd_prime_iff_eq hq prime_67280421310721).mp h
  simp [this]

theorem pow_full : α ^ (2 ^ 128 - 1) = 1 := by
  have h := elt_powE (2 ^ 128 - 1) 128 (le_refl _)
  rw [show powE (2 ^ 128 - 1) 128 = 0x80000000000000000000000000000000#128 by decide +kernel, elt_one,
    Nat.mod_eq_of_lt (by norm_num)] at h
  exact h.symm

theorem order_x : orderOf α = 2 ^ 128 - 1 := by
  apply orderOf_eq_of_pow_and_pow_div_prime (by norm_num) pow_full
  intro q hq hd he
  have h := List.all_eq_true.mp factors_ok q (prime_factor hq hd)
  have h2 := elt_powE ((2 ^ 128 - 1) / q) 128 (le_refl _)
  rw [Nat.mod_eq_of_lt (lt_of_le_of_lt (Nat.div_le_self _ _) (by norm_num)), he, ← elt_one] at h2
  rw [elt_injective h2] at h
  simp at h

noncomputable instance : Module.Finite (ZMod 2) K := (AdjoinRoot.powerBasis' g_monic).finite
noncomputable instance : Finite K := Module.finite_of_finite (ZMod 2)
noncomputable instance : Fintype K := Fintype.ofFinite K

theorem card_K : Fintype.card K = 2 ^ 128 := by
  rw [Module.card_eq_pow_finrank (K := ZMod 2) (V := K), ZMod.card, (AdjoinRoot.powerBasis' g_monic).finrank,
    AdjoinRoot.powerBasis'_dim, natDegree_eq_of_degree_eq_some g_degree]

instance : Nontrivial K := by
  rw [← Fintype.one_lt_card_iff_nontrivial, card_K]; norm_num

theorem unit_x : IsUnit α := IsUnit.of_pow_eq_one pow_full (by norm_num)

/-- Every non-zero element is a power of the class of `x`. -/
theorem exists_pow {y : K} (hy : y ≠ 0) : ∃ i, y = α ^ i := by
  classical
  have hinj : Set.InjOn (fun i => α ^ i) (Finset.range (2 ^ 128 - 1) : Set Nat) := by
    have := pow_injOn_Iio_orderOf (x := α)
    rw [order_x] at this
    simpa using this
  have hsub : (Finset.range (2 ^ 128 - 1)).image (fun i => α ^ i) ⊆ Finset.univ.erase 0 := by
    intro z hz
    obtain ⟨i, -, rfl⟩ := Finset.mem_image.mp hz
    exact Finset.mem_erase.mpr ⟨(unit_x.pow i).ne_zero, Finset.mem_univ _⟩
  have heq := Finset.eq_of_subset_of_card_le hsub (by
    rw [Finset.card_image_of_injOn hinj, Finset.card_erase_of_mem (Finset.mem_univ _), Finset.card_univ, card_K,
      Finset.card_range])
  have : y ∈ (Finset.range (2 ^ 128 - 1)).image (fun i => α ^ i) := by
    rw [heq]; exact Finset.mem_erase.mpr ⟨hy, Finset.mem_univ _⟩
  obtain ⟨i, -, rfl⟩ := Finset.mem_image.mp this
  exact ⟨i, rfl⟩

theorem isField_K : IsField K where
  exists_pair_ne := ⟨0, 1, zero_ne_one⟩
  mul_comm := mul_comm
  mul_inv_cancel := by
    intro y hy
    obtain ⟨i, rfl⟩ := exists_pow hy
    obtain ⟨u, hu⟩ := unit_x.pow i
    exact ⟨↑u⁻¹, by rw [← hu]; simp⟩

instance : IsDomain K := isField_K.isDomain

end CryptoPure.Proofs.GF128Field
