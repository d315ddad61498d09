import Verif.Proofs.Basic
import Verif.Model.GHash
import Verif.Spec.Gcm
import Verif.Spec.GF128
import Mathlib.Algebra.CharP.Two

/-! GHASH: the code computes SP 800-38D GHASH, which is evaluation in GF(2)[x]/(x^128+x^7+x^2+x+1). -/

namespace CryptoPure.Proofs.GHash
open CryptoPure.Model.GHash Polynomial

/-! ### The code computes the standard's algorithm -/

theorem R0_eq : R0 = Spec.Gcm.R := by decide

theorem sshiftRight_full (b : Bool) (x : U128) (h : ∀ i, x.getMsbD i = (decide (i = 0) && b)) :
    x.sshiftRight 127 = if b then BitVec.allOnes 128 else 0 := by
  have hm : x.msb = b := by
    rw [BitVec.msb_eq_getMsbD_zero, h]; simp
  have h0 : ∀ j, j < 127 → x.getLsbD j = false := by
    intro j hj
    have := h (127 - j)
    rw [BitVec.getMsbD] at this
    simp only [show 128 - 1 - (127 - j) = j by omega, show (127 - j < 128) = True by simp; omega] at this
    rw [show decide (127 - j = 0) = false by simp; omega] at this
    simpa using this
  apply BitVec.eq_of_getLsbD_eq
  intro i hi
  rw [BitVec.getLsbD_sshiftRight]
  have hmsb : x.getLsbD 127 = b := by rw [← hm, BitVec.msb_eq_getLsbD_last]
  by_cases hi0 : i = 0
  · subst hi0
    cases b <;> simp_all
  · rw [if_neg (by omega), hm, show decide (128 ≤ i) = false by simpa using hi]
    cases b
    · simp
    · simp only [Bool.not_false, Bool.true_and, if_true]
      rw [BitVec.getLsbD_allOnes]; simpa using hi

theorem mask_top (x : U128) : (x &&& (1#128 <<< 127)).sshiftRight 127 =
    if x.getMsbD 0 then BitVec.allOnes 128 else 0 := by
  apply sshiftRight_full
  intro i
  rw [BitVec.getMsbD_and]
  have : (1#128 <<< 127).getMsbD i = decide (i = 0) := by
    by_cases hi : i < 128
    · interval_cases i <;> decide
    · rw [BitVec.getMsbD_of_ge _ _ (by omega)]; simp; omega
  rw [this]
  by_cases h : i = 0
  · subst h; simp
  · simp [h]

theorem mask_low (x : U128) : (x <<< 127).sshiftRight 127 =
    if x.getMsbD 127 then BitVec.allOnes 128 else 0 := by
  apply sshiftRight_full
  intro i
  rw [BitVec.getMsbD_shiftLeft]
  by_cases h : i = 0
  · subst h; simp
  · rw [BitVec.getMsbD_of_ge _ _ (by omega)]; simp [h]

theorem mulStep_eq (z v x : U128) : mulStep (z, v, x) =
    (if x.getMsbD 0 then z ^^^ v else z, Spec.Gcm.nextV v, x <<< 1) := by
  unfold mulStep Spec.Gcm.nextV
  simp only [mask_top, mask_low, R0_eq]
  refine Prod.ext ?_ (Prod.ext ?_ rfl)
  · simp only; split
    · rw [BitVec.and_allOnes]
    · rw [show (0 : U128) = 0#128 from rfl, BitVec.and_zero, BitVec.xor_zero]
  · simp only; split
    · rw [BitVec.and_allOnes]
    · rw [show (0 : U128) = 0#128 from rfl, BitVec.and_zero, BitVec.xor_zero]

theorem mulLoop_succ (n : Nat) (p : U128 × U128 × U128) : mulLoop (n + 1) p = mulStep (mulLoop n p) := by
  induction n generalizing p with
  | zero => rfl
  | succ n ih => rw [mulLoop, ih]; rfl

theorem mulLoop_eq (x y : U128) (n : Nat) : mulLoop n (0, y, x) =
    ((Spec.Gcm.mulSteps x y n).1, (Spec.Gcm.mulSteps x y n).2, x <<< n) := by
  induction n with
  | zero => simp [mulLoop, Spec.Gcm.mulSteps]
  | succ n ih =>
    rw [mulLoop_succ, ih, mulStep_eq, BitVec.getMsbD_shiftLeft, Nat.zero_add]
    simp only [Spec.Gcm.mulSteps]
    rw [← BitVec.shiftLeft_add]

theorem process_eq (f : PolyFunction) (input : Bytes) :
    f.process input = { f with state := Spec.Gcm.mul (f.state ^^^ Spec.Gcm.bits input) f.keyBlock } := by
  unfold PolyFunction.process
  simp only [mulLoop_eq]
  rfl

theorem fold_process (blocks : List Bytes) (f : PolyFunction) :
    blocks.foldl PolyFunction.process f =
    { f with state := blocks.foldl (fun y x => Spec.Gcm.mul (y ^^^ Spec.Gcm.bits x) f.keyBlock) f.state } := by
  induction blocks generalizing f with
  | nil => rfl
  | cons b bs ih => rw [List.foldl_cons, ih, process_eq]; rfl

theorem pad16_length (x : Bytes) : (Spec.Gcm.pad16 x).length % 16 = 0 := by
  simp [Spec.Gcm.pad16]; omega

theorem fold_processChunk (x : Bytes) (f : PolyFunction) :
    (chunks 16 x).foldl processChunk f = (chunks 16 (Spec.Gcm.pad16 x)).foldl PolyFunction.process f := by
  induction hk : x.length using Nat.strongRecOn generalizing x f with
  | _ k ih =>
    by_cases hx : x = []
    · subst hx; rfl
    · have hpos : 0 < x.length := List.length_pos_iff.mpr hx
      rcases Nat.lt_or_ge x.length 16 with h | h
      · rw [chunks_singleton hx (by omega)]
        have hl : (Spec.Gcm.pad16 x).length = 16 := by simp [Spec.Gcm.pad16]; omega
        rw [chunks_singleton (by intro e; rw [e] at hl; simp at hl) (by omega)]
        simp only [List.foldl_cons, List.foldl_nil, processChunk, if_pos h]
        congr 1
        rw [copyAt_zero, Spec.Gcm.pad16, zeros, zeros, List.drop_replicate, Nat.mod_eq_of_lt h,
          Nat.mod_eq_of_lt (by omega : 16 - x.length < 16)]
      · have hl : (x.take 16).length = 16 := by simp; omega
        have e : Spec.Gcm.pad16 x = x.take 16 ++ Spec.Gcm.pad16 (x.drop 16) := by
          unfold Spec.Gcm.pad16
          rw [← List.append_assoc, List.take_append_drop, List.length_drop, ← Nat.mod_eq_sub_mod h]
        rw [chunks_of_ne_nil (by omega) hx, e, chunks_append_block (by omega) hl, List.foldl_cons,
          List.foldl_cons, ih (x.drop 16).length (by simp; omega) _ _ rfl]
        congr 1
        unfold processChunk
        rw [if_neg (by omega)]

theorem authBlocks_eq (a c : Bytes) : Spec.Gcm.authBlocks a c =
    chunks 16 (Spec.Gcm.pad16 a) ++ chunks 16 (Spec.Gcm.pad16 c)
      ++ [toBE 8 (8 * a.length) ++ toBE 8 (8 * c.length)] := by
  unfold Spec.Gcm.authBlocks
  have h1 := pad16_length a
  have h2 := pad16_length c
  rw [chunks_append (by omega) (by rw [List.length_append]; omega), chunks_append (by omega) h1,
    chunks_singleton (l := toBE 8 (8 * a.length) ++ toBE 8 (8 * c.length))
      (by intro e; simpa using congrArg List.length e) (by simp)]

theorem ghash_spec (m : Mode) (key a c : Bytes) (ha : a.length < 2 ^ 61) (hc : c.length < 2 ^ 61) :
    ghash m key a c =
      some (Spec.Gcm.bytes (Spec.Gcm.ghash (Spec.Gcm.bits key) (Spec.Gcm.authBlocks a c))) := by
  unfold ghash GHash.new GHash.update GHash.process GHash.writeTag
  simp only
  rw [addC_ok m 0 (BitVec.ofNat 64 c.length) (by
    simp only [BitVec.toNat_ofNat]; change 0 + c.length % 2 ^ 64 < 2 ^ 64; omega)]
  have e8 : (8 : U64).toNat = 8 := rfl
  have hm : ∀ n : Nat, n < 2 ^ 61 → mulC m 8 (BitVec.ofNat 64 n) = some (BitVec.ofNat 64 (8 * n)) := by
    intro n hn
    rw [mulC_ok _ _ _ (by rw [e8, BitVec.toNat_ofNat]; omega), BitVec.ofNat_mul]
    rfl
  simp only [Option.bind_eq_bind, Option.bind_some, BitVec.zero_add]
  rw [show (0 : U64) + BitVec.ofNat 64 c.length = BitVec.ofNat 64 c.length from BitVec.zero_add _, hm _ ha, hm _ hc]
  simp only [Option.bind_some]
  rw [fold_processChunk, fold_processChunk, ← List.foldl_append]
  rw [BitVec.toNat_ofNat, BitVec.toNat_ofNat, Nat.mod_eq_of_lt (by omega), Nat.mod_eq_of_lt (by omega)]
  rw [show ∀ (f : PolyFunction) (l : List Bytes) (b : Bytes), (l.foldl PolyFunction.process f).process b
    = (l ++ [b]).foldl PolyFunction.process f from fun f l b => by rw [List.foldl_append]; rfl]
  rw [← authBlocks_eq, fold_process]
  simp only [PolyFunction.value, PolyFunction.new, Spec.Gcm.bytes, Spec.Gcm.ghash, Spec.Gcm.bits]

/-! ### The standard's algorithm is polynomial arithmetic -/

open CryptoPure.Spec.GF128

theorem two_zero (a : K) : a + a = 0 := by
  have : (2 : K) = 0 := by
    have h : algebraMap (ZMod 2) K 2 = 0 := by
      rw [show (2 : ZMod 2) = 0 from rfl, map_zero]
    rwa [map_ofNat] at h
  rw [← two_mul, this, zero_mul]

theorem eq_of_add_zero (t s : K) (h : t + s = 0) : t = s := by
  have : t + s + s = s := by rw [h, zero_add]
  rwa [add_assoc, two_zero, add_zero] at this

theorem root_rel : α ^ 128 = α ^ 7 + α ^ 2 + α + 1 := by
  have aux : ∀ (q r : (ZMod 2)[X]) (n a b : ℕ), r = X ^ n + X ^ a + X ^ b + X + 1 →
      (AdjoinRoot.mk q) r =
        AdjoinRoot.root q ^ n + (AdjoinRoot.root q ^ a + AdjoinRoot.root q ^ b + AdjoinRoot.root q + 1) := by
    intro q r n a b hr
    rw [hr]
    simp only [map_add, map_pow, AdjoinRoot.mk_X, map_one, add_assoc]
  have h : (AdjoinRoot.mk g) g = 0 := AdjoinRoot.mk_self
  have h2 := aux g g 128 7 2 (by unfold g; rfl)
  rw [h] at h2
  exact eq_of_add_zero _ _ h2.symm

theorem elt_zero : elt 0#128 = 0 := by
  unfold elt
  apply Finset.sum_eq_zero
  intro i _
  simp

theorem elt_xor (a b : BitVec 128) : elt (a ^^^ b) = elt a + elt b := by
  unfold elt
  rw [← Finset.sum_add_distrib]
  apply Finset.sum_congr rfl
  intro i _
  rw [BitVec.getMsbD_xor]
  cases a.getMsbD i <;> cases b.getMsbD i <;> simp [two_zero]

theorem elt_R : elt Spec.Gcm.R = 1 + α + α ^ 2 + α ^ 7 := by
  have hR : ∀ i ∈ Finset.range 128, Spec.Gcm.R.getMsbD i = decide (i ∈ ({0, 1, 2, 7} : Finset Nat)) := by
    decide +kernel
  unfold elt
  rw [Finset.sum_congr rfl (fun i hi => by rw [hR i hi])]
  simp only [decide_eq_true_eq]
  rw [← Finset.sum_filter]
  rw [show (Finset.range 128).filter (fun i => i ∈ ({0, 1, 2, 7} : Finset Nat)) = {0, 1, 2, 7} by decide +kernel]
  rw [Finset.sum_insert (by decide), Finset.sum_insert (by decide), Finset.sum_insert (by decide),
    Finset.sum_singleton]
  ring

theorem elt_shift (v : BitVec 128) : elt (v >>> 1) + (if v.getMsbD 127 then α ^ 128 else 0) = α * elt v := by
  unfold elt
  rw [Finset.mul_sum, Finset.sum_range_succ' (fun i => if (v >>> 1).getMsbD i then α ^ i else 0),
    Finset.sum_range_succ (fun i => α * if v.getMsbD i then α ^ i else 0)]
  congr 1
  · rw [show (v >>> 1).getMsbD 0 = false by simp [BitVec.getMsbD_ushiftRight]]
    simp only [Bool.false_eq_true, if_false, add_zero]
    apply Finset.sum_congr rfl
    intro i hi
    have hi := Finset.mem_range.mp hi
    rw [BitVec.getMsbD_ushiftRight]
    simp only [show ¬ (i + 1 < 1) by omega, decide_false, Bool.not_false, Bool.true_and, Nat.add_sub_cancel]
    rw [show decide (i + 1 < 128) = true by simp; omega, Bool.true_and]
    split <;> ring
  · split <;> ring

theorem elt_nextV (v : BitVec 128) : elt (Spec.Gcm.nextV v) = α * elt v := by
  rw [← elt_shift]
  unfold Spec.Gcm.nextV
  by_cases h : v.getMsbD 127 = true
  · rw [if_pos h, if_pos h, elt_xor, elt_R, root_rel]; ring
  · rw [if_neg h, if_neg h, add_zero]

theorem elt_mulSteps (x y : BitVec 128) (n : Nat) :
    elt (Spec.Gcm.mulSteps x y n).1 = (∑ i ∈ Finset.range n, if x.getMsbD i then α ^ i else 0) * elt y ∧
    elt (Spec.Gcm.mulSteps x y n).2 = α ^ n * elt y := by
  induction n with
  | zero => simp [Spec.Gcm.mulSteps, elt_zero]
  | succ n ih =>
    simp only [Spec.Gcm.mulSteps]
    refine ⟨?_, by rw [elt_nextV, ih.2]; ring⟩
    rw [Finset.sum_range_succ]
    by_cases h : x.getMsbD n = true
    · rw [if_pos h, if_pos h, elt_xor, ih.1, ih.2]; ring
    · rw [if_neg h, if_neg h, add_zero, ih.1]

theorem elt_mul (x y : BitVec 128) : elt (Spec.Gcm.mul x y) = elt x * elt y := (elt_mulSteps x y 128).1

/-- Horner evaluation written as a sum. -/
theorem elt_ghash (h : BitVec 128) (blocks : List Bytes) :
    elt (Spec.Gcm.ghash h blocks) =
      ∑ i ∈ Finset.range blocks.length,
        elt (Spec.Gcm.bits (blocks.getD i [])) * elt h ^ (blocks.length - i) := by
  unfold Spec.Gcm.ghash
  induction blocks using List.reverseRecOn with
  | nil => simpa using elt_zero
  | append_singleton bs b ih =>
    rw [List.foldl_append, List.foldl_cons, List.foldl_nil, elt_mul, elt_xor, ih]
    rw [List.length_append, List.length_singleton, Finset.sum_range_succ, add_mul, Finset.sum_mul]
    refine congrArg₂ (· + ·) ?_ ?_
    · apply Finset.sum_congr rfl
      intro i hi
      have hi := Finset.mem_range.mp hi
      rw [List.getD_eq_getElem?_getD, List.getD_eq_getElem?_getD, List.getElem?_append_left hi]
      rw [show bs.length + 1 - i = (bs.length - i) + 1 by omega, pow_succ]; ring
    · simp

theorem g_monic : g.Monic := by
  unfold g
  monicity!

theorem g_degree : g.degree = ((128 : ℕ) : WithBot ℕ) := by
  unfold g
  compute_degree!

theorem elt_eq_mk (v : BitVec 128) : elt v =
    AdjoinRoot.mk g (∑ i ∈ Finset.range 128, if v.getMsbD i then X ^ i else 0) := by
  unfold elt
  rw [map_sum]
  apply Finset.sum_congr rfl
  intro i _
  split <;> simp

theorem degree_lt_of_range (n : ℕ) (f : ℕ → Bool) :
    (∑ i ∈ Finset.range n, if f i then (X : (ZMod 2)[X]) ^ i else 0).degree < (n : WithBot ℕ) := by
  apply lt_of_le_of_lt (Polynomial.degree_sum_le _ _)
  refine (Finset.sup_lt_iff (WithBot.bot_lt_coe n)).mpr ?_
  intro i hi
  have hi := Finset.mem_range.mp hi
  split
  · rw [Polynomial.degree_X_pow]; exact WithBot.coe_lt_coe.mpr hi
  · rw [Polynomial.degree_zero]; exact WithBot.bot_lt_coe n

theorem eq_zero_aux (q p : (ZMod 2)[X]) (h : AdjoinRoot.mk q p = 0) (hd : p.degree < q.degree) : p = 0 :=
  Polynomial.eq_zero_of_dvd_of_degree_lt (AdjoinRoot.mk_eq_zero.mp h) hd

/-- Different blocks represent different ring elements. -/
theorem elt_injective : Function.Injective elt := by
  intro a b h
  have h0 : elt (a ^^^ b) = 0 := by rw [elt_xor, h, two_zero]
  rw [elt_eq_mk] at h0
  set p : (ZMod 2)[X] := ∑ i ∈ Finset.range 128, if (a ^^^ b).getMsbD i then X ^ i else 0 with hp
  have hdeg : p.degree < g.degree := by
    rw [g_degree]
    exact degree_lt_of_range _ _
  clear_value p
  have hz : p = 0 := eq_zero_aux g p h0 hdeg
  have hc : ∀ i < 128, (a ^^^ b).getMsbD i = false := by
    intro i hi
    have : p.coeff i = 0 := by rw [hz, Polynomial.coeff_zero]
    rw [hp, Polynomial.finset_sum_coeff, Finset.sum_eq_single i] at this
    · by_contra hne
      rw [if_pos (by simpa using hne), Polynomial.coeff_X_pow_self] at this
      exact one_ne_zero this
    · intro j _ hj
      split
      · rw [Polynomial.coeff_X_pow, if_neg (fun e => hj e.symm)]
      · exact Polynomial.coeff_zero _
    · intro hni; exact absurd (Finset.mem_range.mpr hi) hni
  have : a ^^^ b = 0 := by
    apply BitVec.eq_of_getMsbD_eq
    intro i hi
    rw [hc i hi]; simp
  exact BitVec.xor_eq_zero_iff.mp this

end CryptoPure.Proofs.GHash
