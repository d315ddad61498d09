import Verif.Model.Fe
import Verif.Spec.Field25519
import Verif.Proofs.SL
import Verif.Proofs.Prime
import Verif.Proofs.Basic
import Mathlib.Algebra.Field.ZMod
import Mathlib.Tactic.LinearCombination

/-! # The limb arithmetic computes in the field of 2^255 - 19 elements -/

namespace CryptoPure.Model.Fe
open SL Spec

theorem p25519_eq : p25519 = 57896044618658097711785492504343953926634992332820282019728792003956564819949 := by
  norm_num [p25519]

instance : Fact (Nat.Prime p25519) := ⟨by rw [p25519_eq]; exact Prime.prime_p⟩

theorem p_int : ((p25519 : Nat) : Int) = 2 ^ 255 - 19 := by norm_num [p25519]

/-- Size unit of limb `i`. -/
def tB (i : Nat) : Int := if i % 2 = 0 then 36909875 else 18454937

/-- Limb weights. -/
def wts : List Int := [1, 2 ^ 26, 2 ^ 51, 2 ^ 77, 2 ^ 102, 2 ^ 128, 2 ^ 153, 2 ^ 179, 2 ^ 204, 2 ^ 230]

def W (o : Nat) : List (Nat × Int) := (List.range 10).map fun i => (o + i, wts.getD i 0)

/-- The integer represented by ten limbs. -/
def valZ (f : Fe) : Int := wsum f (W 0)

/-- The field element represented by ten limbs. -/
def val (f : Fe) : F := ((valZ f : Int) : F)

/-- Ten limbs of size at most `n` units. -/
def B (n : Nat) (f : Fe) : Prop := f.length = 10 ∧ ∀ i, i < 10 → In (-(n * tB i), n * tB i) (f.getD i 0)

theorem B.mono {n k : Nat} {f : Fe} (h : B n f) (hk : n ≤ k) : B k f := by
  refine ⟨h.1, fun i hi => ?_⟩
  have := h.2 i hi
  have ht : 0 ≤ tB i := by unfold tB; split <;> norm_num
  have hkk : ((n : Int)) * tB i ≤ k * tB i := Int.mul_le_mul_of_nonneg_right (by exact_mod_cast hk) ht
  unfold In at *
  simp only at *
  omega

theorem B.elim {n : Nat} {f : Fe} (h : B n f) : ∃ f0 f1 f2 f3 f4 f5 f6 f7 f8 f9,
    f = [f0, f1, f2, f3, f4, f5, f6, f7, f8, f9] := by
  obtain ⟨hl, -⟩ := h
  match f, hl with
  | [f0, f1, f2, f3, f4, f5, f6, f7, f8, f9], _ => exact ⟨f0, f1, f2, f3, f4, f5, f6, f7, f8, f9, rfl⟩

/-! ## Intervals -/

def feIv (n : Nat) : List Iv := (List.range 10).map fun i => (-(n * tB i), n * tB i)
def post (o : Nat) : List (Nat × Iv) := (List.range 10).map fun i => (o + i, (-(tB i), tB i))
def zeroIv (n : Nat) : List Iv := List.replicate n (0, 0)

theorem sat_fe {n : Nat} {f : Fe} (h : B n f) : Sat (feIv n) f := by
  refine ⟨by simp [feIv, h.1], fun i => ?_⟩
  by_cases hi : i < 10
  · have := h.2 i hi
    rw [feIv, List.getD_eq_getElem?_getD, List.getElem?_map, List.getElem?_range hi]
    exact this
  · rw [List.getD_eq_default _ _ (by simp [feIv]; omega), List.getD_eq_default _ _ (by rw [h.1]; omega)]
    exact ⟨le_refl _, le_refl _⟩

theorem sat_append {a b : List Iv} {x y : Env} (h1 : Sat a x) (h2 : Sat b y) : Sat (a ++ b) (x ++ y) := by
  refine ⟨by simp [h1.1, h2.1], fun i => ?_⟩
  have hl := h1.1
  by_cases hi : i < x.length
  · rw [List.getD_append _ _ _ _ (by omega), List.getD_append _ _ _ _ hi]
    exact h1.2 i
  · rw [List.getD_append_right _ _ _ _ (by omega), List.getD_append_right _ _ _ _ (by omega), hl]
    exact h2.2 _

theorem sat_zero (n : Nat) : Sat (zeroIv n) (List.replicate n 0) := by
  refine ⟨by simp [zeroIv], fun i => ?_⟩
  unfold zeroIv
  by_cases hi : i < n
  · rw [List.getD_eq_getElem?_getD, List.getD_eq_getElem?_getD, List.getElem?_replicate, List.getElem?_replicate,
      if_pos hi, if_pos hi]
    exact ⟨le_refl _, le_refl _⟩
  · rw [List.getD_eq_default _ _ (by simpa using hi), List.getD_eq_default _ _ (by simpa using hi)]
    exact ⟨le_refl _, le_refl _⟩

theorem limbs_getD (env : Env) (o i : Nat) (hi : i < 10) : (limbs env o).getD i 0 = env.getD (o + i) 0 := by
  unfold limbs
  rw [List.getD_eq_getElem?_getD, List.getD_eq_getElem?_getD, List.getElem?_take_of_lt hi, List.getElem?_drop]

theorem limbs_length (env : Env) (o : Nat) (h : o + 10 ≤ env.length) : (limbs env o).length = 10 := by
  unfold limbs
  rw [List.length_take, List.length_drop]
  omega

theorem wsum_limbs (env : Env) (o : Nat) : valZ (limbs env o) = wsum env (W o) := by
  unfold valZ W
  simp only [List.range, List.range.loop, List.map_cons, List.map_nil, wsum, Nat.zero_add]
  simp only [limbs_getD _ _ _ (by norm_num : (0:Nat) < 10), limbs_getD _ _ _ (by norm_num : (1:Nat) < 10),
    limbs_getD _ _ _ (by norm_num : (2:Nat) < 10), limbs_getD _ _ _ (by norm_num : (3:Nat) < 10),
    limbs_getD _ _ _ (by norm_num : (4:Nat) < 10), limbs_getD _ _ _ (by norm_num : (5:Nat) < 10),
    limbs_getD _ _ _ (by norm_num : (6:Nat) < 10), limbs_getD _ _ _ (by norm_num : (7:Nat) < 10),
    limbs_getD _ _ _ (by norm_num : (8:Nat) < 10), limbs_getD _ _ _ (by norm_num : (9:Nat) < 10)]

theorem B_of_post {env : Env} {o : Nat} (hl : o + 10 ≤ env.length)
    (h : ∀ q ∈ post o, In q.2 (env.getD q.1 0)) : B 1 (limbs env o) := by
  refine ⟨limbs_length _ _ hl, fun i hi => ?_⟩
  rw [limbs_getD _ _ _ hi, Nat.cast_one, one_mul]
  exact h (o + i, (-(tB i), tB i)) (List.mem_map.mpr ⟨i, List.mem_range.mpr hi, rfl⟩)

theorem cast_eq_of_dvd {x y : Int} (h : (2 ^ 255 - 19 : Int) ∣ x - y) : (x : F) = (y : F) := by
  rw [← p_int] at h
  have := (ZMod.intCast_zmod_eq_zero_iff_dvd (x - y) p25519).mpr (by exact_mod_cast h)
  rwa [Int.cast_sub, sub_eq_zero] at this

theorem wsum_append (a b : Env) (o : Nat) (ha : a.length = 10) (hb : o = 0) : wsum (a ++ b) (W o) = valZ a := by
  subst hb
  match a, ha with
  | [f0, f1, f2, f3, f4, f5, f6, f7, f8, f9], _ => rfl

theorem wsum_append10 (a b c : Env) (ha : a.length = 10) (hb : b.length = 10) : wsum (a ++ b ++ c) (W 10) = valZ b := by
  match a, ha, b, hb with
  | [f0, f1, f2, f3, f4, f5, f6, f7, f8, f9], _, [g0, g1, g2, g3, g4, g5, g6, g7, g8, g9], _ => rfl

/-! ## Multiplications -/

theorem mul_iv : ivCheck FeMul.prog (feIv 3 ++ feIv 3 ++ zeroIv (FeMul.size - 20)) (post FeMul.h0) = true := by
  decide +kernel
theorem mul_poly : polyCheck FeMul.prog 20 FeMul.size (2 ^ 255 - 19) (W FeMul.h0) (W 0) (W 10) [] = true := by
  decide +kernel
theorem sq_iv : ivCheck FeSq.prog (feIv 3 ++ zeroIv (FeSq.size - 10)) (post FeSq.h0) = true := by
  decide +kernel
theorem sq_poly : polyCheck FeSq.prog 10 FeSq.size (2 ^ 255 - 19) (W FeSq.h0) (W 0) (W 0) [] = true := by
  decide +kernel
theorem sq2_iv : ivCheck FeSq2.prog (feIv 3 ++ zeroIv (FeSq2.size - 10)) (post FeSq2.h0) = true := by
  decide +kernel
/-- Twice the limb weights. -/
def W2 (o : Nat) : List (Nat × Int) := (W o).map fun w => (w.1, 2 * w.2)
theorem sq2_poly : polyCheck FeSq2.prog 10 FeSq2.size (2 ^ 255 - 19) (W FeSq2.h0) (W2 0) (W 0) [] = true := by
  decide +kernel
theorem m121666_iv : ivCheck FeMul121666.prog (feIv 3 ++ zeroIv (FeMul121666.size - 10)) (post FeMul121666.h0) = true := by
  decide +kernel
def W121666 (o : Nat) : List (Nat × Int) := (W o).map fun w => (w.1, 121666 * w.2)
theorem m121666_poly : polyCheck FeMul121666.prog 10 FeMul121666.size (2 ^ 255 - 19) (W FeMul121666.h0) [] [] (W121666 0) = true := by
  decide +kernel

theorem wsum_scale (env : Env) (c : Int) (ws : List (Nat × Int)) :
    wsum env (ws.map fun w => (w.1, c * w.2)) = c * wsum env ws := by
  induction ws with
  | nil => simp [wsum]
  | cons w ws ih => simp only [List.map_cons, wsum, ih]; ring

theorem mul_spec (m : Mode) {f g : Fe} (hf : B 3 f) (hg : B 3 g) :
    ∃ h, mul m f g = some h ∧ B 1 h ∧ val h = val f * val g := by
  obtain ⟨e1, e2⟩ := ivCheck_sound m mul_iv (sat_append (sat_append (sat_fe hf) (sat_fe hg)) (sat_zero _))
  have e3 := polyCheck_sound mul_poly (inp := f ++ g) (by simp [hf.1, hg.1]) (by decide)
  rw [wsum_append10 f g _ hf.1 hg.1, List.append_assoc, wsum_append f _ _ hf.1 rfl, ← List.append_assoc, ← wsum_limbs] at e3
  refine ⟨limbs (exRun FeMul.prog (f ++ g ++ List.replicate (FeMul.size - 20) 0)) FeMul.h0, ?_, B_of_post ?_ e2, ?_⟩
  · unfold mul
    rw [e1]; rfl
  · rw [exRun_length]; simp [hf.1, hg.1, FeMul.size, FeMul.h0]
  · have := cast_eq_of_dvd e3
    simpa [val, wsum] using this

theorem sq_spec (m : Mode) {f : Fe} (hf : B 3 f) : ∃ h, sq m f = some h ∧ B 1 h ∧ val h = val f * val f := by
  obtain ⟨e1, e2⟩ := ivCheck_sound m sq_iv (sat_append (sat_fe hf) (sat_zero _))
  have e3 := polyCheck_sound sq_poly (inp := f) hf.1 (by decide)
  rw [wsum_append f _ _ hf.1 rfl, ← wsum_limbs] at e3
  refine ⟨limbs (exRun FeSq.prog (f ++ List.replicate (FeSq.size - 10) 0)) FeSq.h0, ?_, B_of_post ?_ e2, ?_⟩
  · unfold sq
    rw [e1]; rfl
  · rw [exRun_length]; simp [hf.1, FeSq.size, FeSq.h0]
  · have := cast_eq_of_dvd e3
    simpa [val, wsum] using this

theorem sq2_spec (m : Mode) {f : Fe} (hf : B 3 f) : ∃ h, sq2 m f = some h ∧ B 1 h ∧ val h = 2 * (val f * val f) := by
  obtain ⟨e1, e2⟩ := ivCheck_sound m sq2_iv (sat_append (sat_fe hf) (sat_zero _))
  have e3 := polyCheck_sound sq2_poly (inp := f) hf.1 (by decide)
  rw [W2, wsum_scale, wsum_append f _ _ hf.1 rfl, ← wsum_limbs] at e3
  refine ⟨limbs (exRun FeSq2.prog (f ++ List.replicate (FeSq2.size - 10) 0)) FeSq2.h0, ?_, B_of_post ?_ e2, ?_⟩
  · unfold sq2
    rw [e1]; rfl
  · rw [exRun_length]; simp [hf.1, FeSq2.size, FeSq2.h0]
  · have := cast_eq_of_dvd e3
    simpa [val, wsum, mul_assoc] using this

theorem mul121666_spec (m : Mode) {f : Fe} (hf : B 3 f) : ∃ h, mul121666 m f = some h ∧ B 1 h ∧ val h = 121666 * val f := by
  obtain ⟨e1, e2⟩ := ivCheck_sound m m121666_iv (sat_append (sat_fe hf) (sat_zero _))
  have e3 := polyCheck_sound m121666_poly (inp := f) hf.1 (by decide)
  rw [W121666, wsum_scale, wsum_append f _ _ hf.1 rfl, ← wsum_limbs] at e3
  refine ⟨limbs (exRun FeMul121666.prog (f ++ List.replicate (FeMul121666.size - 10) 0)) FeMul121666.h0, ?_, B_of_post ?_ e2, ?_⟩
  · unfold mul121666
    rw [e1]; rfl
  · rw [exRun_length]; simp [hf.1, FeMul121666.size, FeMul121666.h0]
  · have := cast_eq_of_dvd e3
    simpa [val, wsum] using this

/-! ## Additions -/

theorem B_iff {n : Nat} {f0 f1 f2 f3 f4 f5 f6 f7 f8 f9 : Int} : B n [f0, f1, f2, f3, f4, f5, f6, f7, f8, f9] ↔
    ((-(n * 36909875) ≤ f0 ∧ f0 ≤ n * 36909875) ∧ (-(n * 18454937) ≤ f1 ∧ f1 ≤ n * 18454937) ∧
     (-(n * 36909875) ≤ f2 ∧ f2 ≤ n * 36909875) ∧ (-(n * 18454937) ≤ f3 ∧ f3 ≤ n * 18454937) ∧
     (-(n * 36909875) ≤ f4 ∧ f4 ≤ n * 36909875) ∧ (-(n * 18454937) ≤ f5 ∧ f5 ≤ n * 18454937) ∧
     (-(n * 36909875) ≤ f6 ∧ f6 ≤ n * 36909875) ∧ (-(n * 18454937) ≤ f7 ∧ f7 ≤ n * 18454937) ∧
     (-(n * 36909875) ≤ f8 ∧ f8 ≤ n * 36909875) ∧ (-(n * 18454937) ≤ f9 ∧ f9 ≤ n * 18454937)) := by
  constructor
  · intro h
    exact ⟨h.2 0 (by norm_num), h.2 1 (by norm_num), h.2 2 (by norm_num), h.2 3 (by norm_num), h.2 4 (by norm_num),
      h.2 5 (by norm_num), h.2 6 (by norm_num), h.2 7 (by norm_num), h.2 8 (by norm_num), h.2 9 (by norm_num)⟩
  · rintro ⟨h0, h1, h2, h3, h4, h5, h6, h7, h8, h9⟩
    refine ⟨rfl, fun i hi => ?_⟩
    match i, hi with
    | 0, _ => exact h0
    | 1, _ => exact h1
    | 2, _ => exact h2
    | 3, _ => exact h3
    | 4, _ => exact h4
    | 5, _ => exact h5
    | 6, _ => exact h6
    | 7, _ => exact h7
    | 8, _ => exact h8
    | 9, _ => exact h9

theorem valZ_explicit (f0 f1 f2 f3 f4 f5 f6 f7 f8 f9 : Int) : valZ [f0, f1, f2, f3, f4, f5, f6, f7, f8, f9] =
    f0 + 2 ^ 26 * f1 + 2 ^ 51 * f2 + 2 ^ 77 * f3 + 2 ^ 102 * f4 + 2 ^ 128 * f5 + 2 ^ 153 * f6 + 2 ^ 179 * f7 +
      2 ^ 204 * f8 + 2 ^ 230 * f9 := by
  simp [valZ, W, wsum, wts, List.range, List.range.loop]
  ring

theorem ck_i32 (m : Mode) {x : Int} (h1 : -2147483648 ≤ x) (h2 : x ≤ 2147483647) : ck m .i32 x = some x := by
  unfold ck
  rw [if_pos ⟨h1, h2⟩]

theorem add_spec (m : Mode) {a b : Nat} {f g : Fe} (hf : B a f) (hg : B b g) (hab : a + b ≤ 50) :
    ∃ h, add m f g = some h ∧ B (a + b) h ∧ val h = val f + val g := by
  obtain ⟨f0, f1, f2, f3, f4, f5, f6, f7, f8, f9, rfl⟩ := hf.elim
  obtain ⟨g0, g1, g2, g3, g4, g5, g6, g7, g8, g9, rfl⟩ := hg.elim
  rw [B_iff] at hf hg
  refine ⟨[f0 + g0, f1 + g1, f2 + g2, f3 + g3, f4 + g4, f5 + g5, f6 + g6, f7 + g7, f8 + g8, f9 + g9], ?_, ?_, ?_⟩
  · simp only [add, List.zip_cons_cons, List.zip_nil_left, List.mapM_cons, List.mapM_nil]
    rw [ck_i32 m (by omega) (by omega), ck_i32 m (by omega) (by omega), ck_i32 m (by omega) (by omega),
      ck_i32 m (by omega) (by omega), ck_i32 m (by omega) (by omega), ck_i32 m (by omega) (by omega),
      ck_i32 m (by omega) (by omega), ck_i32 m (by omega) (by omega), ck_i32 m (by omega) (by omega),
      ck_i32 m (by omega) (by omega)]
    rfl
  · rw [B_iff]; omega
  · simp only [val, valZ_explicit]; push_cast; ring

theorem sub_spec (m : Mode) {a b : Nat} {f g : Fe} (hf : B a f) (hg : B b g) (hab : a + b ≤ 50) :
    ∃ h, sub m f g = some h ∧ B (a + b) h ∧ val h = val f - val g := by
  obtain ⟨f0, f1, f2, f3, f4, f5, f6, f7, f8, f9, rfl⟩ := hf.elim
  obtain ⟨g0, g1, g2, g3, g4, g5, g6, g7, g8, g9, rfl⟩ := hg.elim
  rw [B_iff] at hf hg
  refine ⟨[f0 - g0, f1 - g1, f2 - g2, f3 - g3, f4 - g4, f5 - g5, f6 - g6, f7 - g7, f8 - g8, f9 - g9], ?_, ?_, ?_⟩
  · simp only [sub, List.zip_cons_cons, List.zip_nil_left, List.mapM_cons, List.mapM_nil]
    rw [ck_i32 m (by omega) (by omega), ck_i32 m (by omega) (by omega), ck_i32 m (by omega) (by omega),
      ck_i32 m (by omega) (by omega), ck_i32 m (by omega) (by omega), ck_i32 m (by omega) (by omega),
      ck_i32 m (by omega) (by omega), ck_i32 m (by omega) (by omega), ck_i32 m (by omega) (by omega),
      ck_i32 m (by omega) (by omega)]
    rfl
  · rw [B_iff]; omega
  · simp only [val, valZ_explicit]; push_cast; ring

theorem neg_spec (m : Mode) {a : Nat} {f : Fe} (hf : B a f) (ha : a ≤ 50) :
    ∃ h, neg m f = some h ∧ B a h ∧ val h = - val f := by
  obtain ⟨f0, f1, f2, f3, f4, f5, f6, f7, f8, f9, rfl⟩ := hf.elim
  rw [B_iff] at hf
  refine ⟨[-f0, -f1, -f2, -f3, -f4, -f5, -f6, -f7, -f8, -f9], ?_, ?_, ?_⟩
  · simp only [neg, List.mapM_cons, List.mapM_nil]
    rw [ck_i32 m (by omega) (by omega), ck_i32 m (by omega) (by omega), ck_i32 m (by omega) (by omega),
      ck_i32 m (by omega) (by omega), ck_i32 m (by omega) (by omega), ck_i32 m (by omega) (by omega),
      ck_i32 m (by omega) (by omega), ck_i32 m (by omega) (by omega), ck_i32 m (by omega) (by omega),
      ck_i32 m (by omega) (by omega)]
    rfl
  · rw [B_iff]; omega
  · simp only [val, valZ_explicit]; push_cast; ring

theorem zero_B : B 1 zero := B_iff.mpr (by norm_num)
theorem one_B : B 1 one := B_iff.mpr (by norm_num)
theorem val_zero : val zero = 0 := by simp [val, zero, valZ_explicit]
theorem val_one : val one = 1 := by simp [val, one, valZ_explicit]

/-! ## Conditional swap and move -/

theorem selLimb_zero {x : Int} (y : Int) (h1 : -2147483648 ≤ x) (h2 : x ≤ 2147483647) : selLimb 0 x y = x := by
  unfold selLimb
  have : (-(0 : U32)) = 0#32 := by decide
  rw [this, BitVec.and_zero, BitVec.xor_zero, BitVec.toInt_ofInt]
  exact Int.bmod_eq_of_le (by omega) (by omega)

theorem selLimb_one (x : Int) {y : Int} (h1 : -2147483648 ≤ y) (h2 : y ≤ 2147483647) : selLimb 1 x y = y := by
  unfold selLimb
  have : (-(1 : U32)) = BitVec.allOnes 32 := by decide
  rw [this, BitVec.and_allOnes, ← BitVec.xor_assoc, BitVec.xor_self, BitVec.zero_xor, BitVec.toInt_ofInt]
  exact Int.bmod_eq_of_le (by omega) (by omega)

theorem cmov_zero {a : Nat} {f g : Fe} (hf : B a f) (hg : g.length = 10) (ha : a ≤ 50) : cmov f g 0 = f := by
  obtain ⟨f0, f1, f2, f3, f4, f5, f6, f7, f8, f9, rfl⟩ := hf.elim
  rw [B_iff] at hf
  match g, hg with
  | [g0, g1, g2, g3, g4, g5, g6, g7, g8, g9], _ =>
    simp only [cmov, List.zipWith_cons_cons, List.zipWith_nil_left]
    rw [selLimb_zero _ (by omega) (by omega), selLimb_zero _ (by omega) (by omega), selLimb_zero _ (by omega) (by omega),
      selLimb_zero _ (by omega) (by omega), selLimb_zero _ (by omega) (by omega), selLimb_zero _ (by omega) (by omega),
      selLimb_zero _ (by omega) (by omega), selLimb_zero _ (by omega) (by omega), selLimb_zero _ (by omega) (by omega),
      selLimb_zero _ (by omega) (by omega)]

theorem cmov_one {a : Nat} {f g : Fe} (hf : f.length = 10) (hg : B a g) (ha : a ≤ 50) : cmov f g 1 = g := by
  obtain ⟨g0, g1, g2, g3, g4, g5, g6, g7, g8, g9, rfl⟩ := hg.elim
  rw [B_iff] at hg
  match f, hf with
  | [f0, f1, f2, f3, f4, f5, f6, f7, f8, f9], _ =>
    simp only [cmov, List.zipWith_cons_cons, List.zipWith_nil_left]
    rw [selLimb_one _ (by omega) (by omega), selLimb_one _ (by omega) (by omega), selLimb_one _ (by omega) (by omega),
      selLimb_one _ (by omega) (by omega), selLimb_one _ (by omega) (by omega), selLimb_one _ (by omega) (by omega),
      selLimb_one _ (by omega) (by omega), selLimb_one _ (by omega) (by omega), selLimb_one _ (by omega) (by omega),
      selLimb_one _ (by omega) (by omega)]

theorem swap_snd (f g : Fe) (b : U32) : (cswap f g b).2 = cmov g f b := by
  change List.zipWith (fun x y => (BitVec.ofInt 32 y ^^^ ((BitVec.ofInt 32 x ^^^ BitVec.ofInt 32 y) &&& (-b))).toInt) f g =
    List.zipWith (fun x y => selLimb b x y) g f
  rw [List.zipWith_comm]
  congr 1
  funext y x
  unfold selLimb
  rw [BitVec.xor_comm (BitVec.ofInt 32 y) (BitVec.ofInt 32 x)]

theorem cswap_zero {a b : Nat} {f g : Fe} (hf : B a f) (hg : B b g) (ha : a ≤ 50) (hb : b ≤ 50) :
    cswap f g 0 = (f, g) := by
  have h1 : (cswap f g 0).1 = f := cmov_zero hf hg.1 ha
  have h2 : (cswap f g 0).2 = g := by rw [swap_snd]; exact cmov_zero hg hf.1 hb
  exact Prod.ext h1 h2

theorem cswap_one {a b : Nat} {f g : Fe} (hf : B a f) (hg : B b g) (ha : a ≤ 50) (hb : b ≤ 50) :
    cswap f g 1 = (g, f) := by
  have h1 : (cswap f g 1).1 = g := cmov_one hf.1 hg hb
  have h2 : (cswap f g 1).2 = f := by rw [swap_snd]; exact cmov_one hg.1 hf ha
  exact Prod.ext h1 h2

end CryptoPure.Model.Fe
