import Verif.Proofs.FeBytes

/-! # Storing field elements -/

namespace CryptoPure.Model.Fe
open SL Spec

theorem store_nat (d0 d1 d2 d3 d4 d5 d6 d7 d8 d9 : Nat) (h0 : d0 < 2 ^ 26) (h1 : d1 < 2 ^ 25) (h2 : d2 < 2 ^ 26) (h3 : d3 < 2 ^ 25) (h4 : d4 < 2 ^ 26) (h5 : d5 < 2 ^ 25) (h6 : d6 < 2 ^ 26) (h7 : d7 < 2 ^ 25) (h8 : d8 < 2 ^ 26) (h9 : d9 < 2 ^ 25) :
    ((d0 / 2 ^ 0 % 256) + 256 * ((d0 / 2 ^ 8 % 256) + 256 * ((d0 / 2 ^ 16 % 256) + 256 * (((d0 / 2 ^ 24 + d1 * 2 ^ 2) % 256) + 256 * ((d1 / 2 ^ 6 % 256) + 256 * ((d1 / 2 ^ 14 % 256) + 256 * (((d1 / 2 ^ 22 + d2 * 2 ^ 3) % 256) + 256 * ((d2 / 2 ^ 5 % 256) + 256 * ((d2 / 2 ^ 13 % 256) + 256 * (((d2 / 2 ^ 21 + d3 * 2 ^ 5) % 256) + 256 * ((d3 / 2 ^ 3 % 256) + 256 * ((d3 / 2 ^ 11 % 256) + 256 * (((d3 / 2 ^ 19 + d4 * 2 ^ 6) % 256) + 256 * ((d4 / 2 ^ 2 % 256) + 256 * ((d4 / 2 ^ 10 % 256) + 256 * ((d4 / 2 ^ 18 % 256) + 256 * ((d5 / 2 ^ 0 % 256) + 256 * ((d5 / 2 ^ 8 % 256) + 256 * ((d5 / 2 ^ 16 % 256) + 256 * (((d5 / 2 ^ 24 + d6 * 2 ^ 1) % 256) + 256 * ((d6 / 2 ^ 7 % 256) + 256 * ((d6 / 2 ^ 15 % 256) + 256 * (((d6 / 2 ^ 23 + d7 * 2 ^ 3) % 256) + 256 * ((d7 / 2 ^ 5 % 256) + 256 * ((d7 / 2 ^ 13 % 256) + 256 * (((d7 / 2 ^ 21 + d8 * 2 ^ 4) % 256) + 256 * ((d8 / 2 ^ 4 % 256) + 256 * ((d8 / 2 ^ 12 % 256) + 256 * (((d8 / 2 ^ 20 + d9 * 2 ^ 6) % 256) + 256 * ((d9 / 2 ^ 2 % 256) + 256 * ((d9 / 2 ^ 10 % 256) + 256 * ((d9 / 2 ^ 18 % 256) + 256 * 0)))))))))))))))))))))))))))))))) =
      2 ^ 0 * d0 + 2 ^ 26 * d1 + 2 ^ 51 * d2 + 2 ^ 77 * d3 + 2 ^ 102 * d4 + 2 ^ 128 * d5 + 2 ^ 153 * d6 + 2 ^ 179 * d7 + 2 ^ 204 * d8 + 2 ^ 230 * d9 := by
  have j3 : ((d0 / 2 ^ 24 + d1 * 2 ^ 2) % 256) = d0 / 2 ^ 24 + 2 ^ 2 * (d1 % 2 ^ 6) := by omega
  have j6 : ((d1 / 2 ^ 22 + d2 * 2 ^ 3) % 256) = d1 / 2 ^ 22 + 2 ^ 3 * (d2 % 2 ^ 5) := by omega
  have j9 : ((d2 / 2 ^ 21 + d3 * 2 ^ 5) % 256) = d2 / 2 ^ 21 + 2 ^ 5 * (d3 % 2 ^ 3) := by omega
  have j12 : ((d3 / 2 ^ 19 + d4 * 2 ^ 6) % 256) = d3 / 2 ^ 19 + 2 ^ 6 * (d4 % 2 ^ 2) := by omega
  have j19 : ((d5 / 2 ^ 24 + d6 * 2 ^ 1) % 256) = d5 / 2 ^ 24 + 2 ^ 1 * (d6 % 2 ^ 7) := by omega
  have j22 : ((d6 / 2 ^ 23 + d7 * 2 ^ 3) % 256) = d6 / 2 ^ 23 + 2 ^ 3 * (d7 % 2 ^ 5) := by omega
  have j25 : ((d7 / 2 ^ 21 + d8 * 2 ^ 4) % 256) = d7 / 2 ^ 21 + 2 ^ 4 * (d8 % 2 ^ 4) := by omega
  have j28 : ((d8 / 2 ^ 20 + d9 * 2 ^ 6) % 256) = d8 / 2 ^ 20 + 2 ^ 6 * (d9 % 2 ^ 2) := by omega
  have s0 : d0 = 2 ^ 0 * (d0 / 2 ^ 0 % 256) + 2 ^ 8 * (d0 / 2 ^ 8 % 256) + 2 ^ 16 * (d0 / 2 ^ 16 % 256) + 2 ^ 24 * (d0 / 2 ^ 24) := by omega
  have s1 : d1 = d1 % 2 ^ 6 + 2 ^ 6 * (d1 / 2 ^ 6 % 256) + 2 ^ 14 * (d1 / 2 ^ 14 % 256) + 2 ^ 22 * (d1 / 2 ^ 22) := by omega
  have s2 : d2 = d2 % 2 ^ 5 + 2 ^ 5 * (d2 / 2 ^ 5 % 256) + 2 ^ 13 * (d2 / 2 ^ 13 % 256) + 2 ^ 21 * (d2 / 2 ^ 21) := by omega
  have s3 : d3 = d3 % 2 ^ 3 + 2 ^ 3 * (d3 / 2 ^ 3 % 256) + 2 ^ 11 * (d3 / 2 ^ 11 % 256) + 2 ^ 19 * (d3 / 2 ^ 19) := by omega
  have s4 : d4 = d4 % 2 ^ 2 + 2 ^ 2 * (d4 / 2 ^ 2 % 256) + 2 ^ 10 * (d4 / 2 ^ 10 % 256) + 2 ^ 18 * (d4 / 2 ^ 18 % 256) := by omega
  have s5 : d5 = 2 ^ 0 * (d5 / 2 ^ 0 % 256) + 2 ^ 8 * (d5 / 2 ^ 8 % 256) + 2 ^ 16 * (d5 / 2 ^ 16 % 256) + 2 ^ 24 * (d5 / 2 ^ 24) := by omega
  have s6 : d6 = d6 % 2 ^ 7 + 2 ^ 7 * (d6 / 2 ^ 7 % 256) + 2 ^ 15 * (d6 / 2 ^ 15 % 256) + 2 ^ 23 * (d6 / 2 ^ 23) := by omega
  have s7 : d7 = d7 % 2 ^ 5 + 2 ^ 5 * (d7 / 2 ^ 5 % 256) + 2 ^ 13 * (d7 / 2 ^ 13 % 256) + 2 ^ 21 * (d7 / 2 ^ 21) := by omega
  have s8 : d8 = d8 % 2 ^ 4 + 2 ^ 4 * (d8 / 2 ^ 4 % 256) + 2 ^ 12 * (d8 / 2 ^ 12 % 256) + 2 ^ 20 * (d8 / 2 ^ 20) := by omega
  have s9 : d9 = d9 % 2 ^ 2 + 2 ^ 2 * (d9 / 2 ^ 2 % 256) + 2 ^ 10 * (d9 / 2 ^ 10 % 256) + 2 ^ 18 * (d9 / 2 ^ 18 % 256) := by omega
  rw [j3, j6, j9, j12, j19, j22, j25, j28]
  linear_combination (exp := 1) 0 - 2 ^ 0 * s0 - 2 ^ 26 * s1 - 2 ^ 51 * s2 - 2 ^ 77 * s3 - 2 ^ 102 * s4 - 2 ^ 128 * s5 - 2 ^ 153 * s6 - 2 ^ 179 * s7 - 2 ^ 204 * s8 - 2 ^ 230 * s9

theorem ofInt_toNat {d : Nat} (h : d < 2 ^ 31) : (BitVec.ofInt 32 (d : Int)).toNat = d := by
  rw [BitVec.toNat_ofInt]
  omega

theorem sshr_toNat {x : BitVec 32} (k : Nat) (h : x.toNat < 2 ^ 31) : (x.sshiftRight k).toNat = x.toNat / 2 ^ k := by
  have : x.msb = false := by rw [BitVec.msb_eq_decide]; simp; omega
  rw [BitVec.sshiftRight_eq_of_msb_false this, BitVec.toNat_ushiftRight, Nat.shiftRight_eq_div_pow]

theorem byte_r {x : BitVec 32} (k : Nat) (h : x.toNat < 2 ^ 31) :
    ((x.sshiftRight k).setWidth 8).toNat = x.toNat / 2 ^ k % 256 := by
  rw [BitVec.toNat_setWidth, sshr_toNat k h]

theorem byte_j {x y : BitVec 32} (k k' : Nat) (hx : x.toNat < 2 ^ 31) (hy : y.toNat < 2 ^ 26) (hk : x.toNat / 2 ^ k < 2 ^ k')
    (hk' : k' ≤ 6) :
    ((x.sshiftRight k ||| (y <<< k')).setWidth 8).toNat = (x.toNat / 2 ^ k + y.toNat * 2 ^ k') % 256 := by
  have h2 : 2 ^ k' ≤ 2 ^ 6 := Nat.pow_le_pow_right (by norm_num) hk'
  have h3 : y.toNat * 2 ^ k' < 2 ^ 32 := lt_of_le_of_lt (Nat.mul_le_mul_left _ h2) (by omega)
  rw [BitVec.toNat_setWidth, BitVec.toNat_or, sshr_toNat k hx, BitVec.toNat_shiftLeft, Nat.shiftLeft_eq,
    Nat.mod_eq_of_lt h3, Nat.or_comm, ← Nat.shiftLeft_eq, ← Nat.shiftLeft_add_eq_or_of_lt hk, Nat.shiftLeft_eq,
    Nat.add_comm]

theorem storeBytes_spec (h : Nat → BitVec 32) (he : ∀ i, i < 10 → (h i).toNat < 2 ^ 26)
    (ho : ∀ i, i < 10 → i % 2 = 1 → (h i).toNat < 2 ^ 25) :
    storeBytes h = toLE 32 ((h 0).toNat + 2 ^ 26 * (h 1).toNat + 2 ^ 51 * (h 2).toNat + 2 ^ 77 * (h 3).toNat +
      2 ^ 102 * (h 4).toNat + 2 ^ 128 * (h 5).toNat + 2 ^ 153 * (h 6).toNat + 2 ^ 179 * (h 7).toNat +
      2 ^ 204 * (h 8).toNat + 2 ^ 230 * (h 9).toNat) := by
  have hl : (storeBytes h).length = 32 := rfl
  have key : leNat (storeBytes h) = (h 0).toNat + 2 ^ 26 * (h 1).toNat + 2 ^ 51 * (h 2).toNat + 2 ^ 77 * (h 3).toNat +
      2 ^ 102 * (h 4).toNat + 2 ^ 128 * (h 5).toNat + 2 ^ 153 * (h 6).toNat + 2 ^ 179 * (h 7).toNat +
      2 ^ 204 * (h 8).toNat + 2 ^ 230 * (h 9).toNat := by
    have h0 := he 0 (by norm_num); have h1 := ho 1 (by norm_num) rfl; have h2 := he 2 (by norm_num); have h3 := ho 3 (by norm_num) rfl; have h4 := he 4 (by norm_num)
    have h5 := ho 5 (by norm_num) rfl; have h6 := he 6 (by norm_num); have h7 := ho 7 (by norm_num) rfl; have h8 := he 8 (by norm_num); have h9 := ho 9 (by norm_num) rfl
    have := store_nat _ _ _ _ _ _ _ _ _ _ h0 h1 h2 h3 h4 h5 h6 h7 h8 h9
    simp only [Nat.pow_zero, Nat.one_mul, Nat.div_one] at this
    rw [← this]
    simp only [storeBytes, List.map_cons, List.map_nil, leNat]
    rw [byte_j 24 2 (by omega) (by omega) (by omega) (by norm_num), byte_j 22 3 (by omega) (by omega) (by omega) (by norm_num),
      byte_j 21 5 (by omega) (by omega) (by omega) (by norm_num), byte_j 19 6 (by omega) (by omega) (by omega) (by norm_num),
      byte_j 24 1 (by omega) (by omega) (by omega) (by norm_num), byte_j 23 3 (by omega) (by omega) (by omega) (by norm_num),
      byte_j 21 4 (by omega) (by omega) (by omega) (by norm_num), byte_j 20 6 (by omega) (by omega) (by omega) (by norm_num)]
    simp only [byte_r (x := h 0) _ (by omega), byte_r (x := h 1) _ (by omega), byte_r (x := h 2) _ (by omega),
      byte_r (x := h 3) _ (by omega), byte_r (x := h 4) _ (by omega), byte_r (x := h 5) _ (by omega),
      byte_r (x := h 6) _ (by omega), byte_r (x := h 7) _ (by omega), byte_r (x := h 8) _ (by omega),
      byte_r (x := h 9) _ (by omega), Nat.pow_zero, Nat.div_one]
  rw [← key, ← hl, toLE_leNat]

/-! ## The final reduction -/

def digitIv : List (Nat × Iv) := (List.range 10).map fun i => (i, (0, if i % 2 = 0 then 2 ^ 26 - 1 else 2 ^ 25 - 1))

theorem write_iv : ivCheck FeWriteBytes.prog (feIv 3 ++ zeroIv (FeWriteBytes.size - 10)) digitIv = true := by
  decide +kernel
/-- Digits - 19 q + 2^255 carry9 = input. -/
theorem write_poly : polyCheck FeWriteBytes.prog 10 FeWriteBytes.size 0 (W 0 ++ [(10, -19), (20, 2 ^ 255)]) [] [] (W 0) = true := by
  decide +kernel

theorem exRun_getD_unassigned (p : List Stmt) (env : Env) (i : Nat) (h : p.all (fun s => s.dst != i) = true) :
    (exRun p env).getD i 0 = env.getD i 0 := by
  induction p generalizing env with
  | nil => rfl
  | cons s p ih =>
    simp only [List.all_cons, Bool.and_eq_true, bne_iff_ne] at h
    rw [exRun, ih _ h.2, List.getD_eq_getElem?_getD, List.getElem?_set_ne h.1, ← List.getD_eq_getElem?_getD]

/-- The quotient estimate of `write_bytes`. -/
def quot (f0 f1 f2 f3 f4 f5 f6 f7 f8 f9 : Int) : Int :=
  (f9 + (f8 + (f7 + (f6 + (f5 + (f4 + (f3 + (f2 + (f1 + (f0 + (19 * f9 + 16777216) / 2 ^ 25) / 2 ^ 26) / 2 ^ 25) /
    2 ^ 26) / 2 ^ 25) / 2 ^ 26) / 2 ^ 25) / 2 ^ 26) / 2 ^ 25) / 2 ^ 26) / 2 ^ 25

theorem quot_slot (f0 f1 f2 f3 f4 f5 f6 f7 f8 f9 : Int) :
    (exRun FeWriteBytes.prog ([f0, f1, f2, f3, f4, f5, f6, f7, f8, f9] ++ List.replicate (FeWriteBytes.size - 10) 0)).getD 10 0
      = quot f0 f1 f2 f3 f4 f5 f6 f7 f8 f9 := by
  have : FeWriteBytes.prog = FeWriteBytes.prog.take 11 ++ FeWriteBytes.prog.drop 11 := (List.take_append_drop 11 _).symm
  rw [this, exRun_append, exRun_getD_unassigned _ _ _ (by decide)]
  rfl

theorem div_spec (x y : Int) (hy : 0 < y) : y * (x / y) ≤ x ∧ x ≤ y * (x / y) + (y - 1) := by
  have h1 := Int.emod_add_mul_ediv x y
  have h2 := Int.emod_nonneg x (ne_of_gt hy)
  have h3 := Int.emod_lt_of_pos x hy
  constructor <;> omega

/-- The quotient estimate is the exact quotient. -/
theorem quot_spec {f0 f1 f2 f3 f4 f5 f6 f7 f8 f9 : Int} (h : B 3 [f0, f1, f2, f3, f4, f5, f6, f7, f8, f9]) :
    0 ≤ valZ [f0, f1, f2, f3, f4, f5, f6, f7, f8, f9] - (2 ^ 255 - 19) * quot f0 f1 f2 f3 f4 f5 f6 f7 f8 f9 ∧
    valZ [f0, f1, f2, f3, f4, f5, f6, f7, f8, f9] - (2 ^ 255 - 19) * quot f0 f1 f2 f3 f4 f5 f6 f7 f8 f9 < 2 ^ 255 - 19 := by
  rw [B_iff] at h
  push_cast at h
  obtain ⟨⟨a0, b0⟩, ⟨a1, b1⟩, ⟨a2, b2⟩, ⟨a3, b3⟩, ⟨a4, b4⟩, ⟨a5, b5⟩, ⟨a6, b6⟩, ⟨a7, b7⟩, ⟨a8, b8⟩, ⟨a9, b9⟩⟩ := h
  rw [valZ_explicit]
  unfold quot
  obtain ⟨c, d⟩ := div_spec (19 * f9 + 16777216) (2 ^ 25) (by norm_num)
  generalize (19 * f9 + 16777216) / 2 ^ 25 = t at *
  obtain ⟨c0, d0⟩ := div_spec (f0 + t) (2 ^ 26) (by norm_num)
  generalize (f0 + t) / 2 ^ 26 = t0 at *
  obtain ⟨c1, d1⟩ := div_spec (f1 + t0) (2 ^ 25) (by norm_num)
  generalize (f1 + t0) / 2 ^ 25 = t1 at *
  obtain ⟨c2, d2⟩ := div_spec (f2 + t1) (2 ^ 26) (by norm_num)
  generalize (f2 + t1) / 2 ^ 26 = t2 at *
  obtain ⟨c3, d3⟩ := div_spec (f3 + t2) (2 ^ 25) (by norm_num)
  generalize (f3 + t2) / 2 ^ 25 = t3 at *
  obtain ⟨c4, d4⟩ := div_spec (f4 + t3) (2 ^ 26) (by norm_num)
  generalize (f4 + t3) / 2 ^ 26 = t4 at *
  obtain ⟨c5, d5⟩ := div_spec (f5 + t4) (2 ^ 25) (by norm_num)
  generalize (f5 + t4) / 2 ^ 25 = t5 at *
  obtain ⟨c6, d6⟩ := div_spec (f6 + t5) (2 ^ 26) (by norm_num)
  generalize (f6 + t5) / 2 ^ 26 = t6 at *
  obtain ⟨c7, d7⟩ := div_spec (f7 + t6) (2 ^ 25) (by norm_num)
  generalize (f7 + t6) / 2 ^ 25 = t7 at *
  obtain ⟨c8, d8⟩ := div_spec (f8 + t7) (2 ^ 26) (by norm_num)
  generalize (f8 + t7) / 2 ^ 26 = t8 at *
  obtain ⟨c9, d9⟩ := div_spec (f9 + t8) (2 ^ 25) (by norm_num)
  generalize (f9 + t8) / 2 ^ 25 = q at *
  -- H + t between 2^255 q and 2^255 q + 2^255 - 1
  have lo : 2 ^ 255 * q ≤ f0 + 2 ^ 26 * f1 + 2 ^ 51 * f2 + 2 ^ 77 * f3 + 2 ^ 102 * f4 + 2 ^ 128 * f5 + 2 ^ 153 * f6 +
      2 ^ 179 * f7 + 2 ^ 204 * f8 + 2 ^ 230 * f9 + t := by
    linear_combination c0 + 2 ^ 26 * c1 + 2 ^ 51 * c2 + 2 ^ 77 * c3 + 2 ^ 102 * c4 + 2 ^ 128 * c5 + 2 ^ 153 * c6 +
      2 ^ 179 * c7 + 2 ^ 204 * c8 + 2 ^ 230 * c9
  have hi : f0 + 2 ^ 26 * f1 + 2 ^ 51 * f2 + 2 ^ 77 * f3 + 2 ^ 102 * f4 + 2 ^ 128 * f5 + 2 ^ 153 * f6 +
      2 ^ 179 * f7 + 2 ^ 204 * f8 + 2 ^ 230 * f9 + t ≤ 2 ^ 255 * q + (2 ^ 255 - 1) := by
    linear_combination d0 + 2 ^ 26 * d1 + 2 ^ 51 * d2 + 2 ^ 77 * d3 + 2 ^ 102 * d4 + 2 ^ 128 * d5 + 2 ^ 153 * d6 +
      2 ^ 179 * d7 + 2 ^ 204 * d8 + 2 ^ 230 * d9
  clear c0 c1 c2 c3 c4 c5 c6 c7 c8 c9 d0 d1 d2 d3 d4 d5 d6 d7 d8 d9
  have r1 : f0 + 2 ^ 26 * f1 + 2 ^ 51 * f2 + 2 ^ 77 * f3 + 2 ^ 102 * f4 + 2 ^ 128 * f5 + 2 ^ 153 * f6 +
      2 ^ 179 * f7 + 2 ^ 204 * f8 ≤ 2 ^ 234 := by
    linarith
  have r2 : -2 ^ 234 ≤ f0 + 2 ^ 26 * f1 + 2 ^ 51 * f2 + 2 ^ 77 * f3 + 2 ^ 102 * f4 + 2 ^ 128 * f5 + 2 ^ 153 * f6 +
      2 ^ 179 * f7 + 2 ^ 204 * f8 := by
    linarith
  generalize f0 + 2 ^ 26 * f1 + 2 ^ 51 * f2 + 2 ^ 77 * f3 + 2 ^ 102 * f4 + 2 ^ 128 * f5 + 2 ^ 153 * f6 +
      2 ^ 179 * f7 + 2 ^ 204 * f8 = r at *
  constructor
  · by_contra hc
    have : r + 2 ^ 230 * f9 - (2 ^ 255 - 19) * q ≤ -1 := by omega
    linarith
  · by_contra hc
    rw [not_lt] at hc
    linarith

theorem toBytes_spec (m : Mode) {f : Fe} (hf : B 3 f) : toBytes m f = some (toLE 32 (val f).val) := by
  obtain ⟨e1, e2⟩ := ivCheck_sound m write_iv (sat_append (sat_fe hf) (sat_zero _))
  have e3 := polyCheck_sound write_poly (inp := f) hf.1 (by decide)
  rw [wsum_append f _ _ hf.1 rfl] at e3
  obtain ⟨f0, f1, f2, f3, f4, f5, f6, f7, f8, f9, rfl⟩ := hf.elim
  have hq := quot_slot f0 f1 f2 f3 f4 f5 f6 f7 f8 f9
  have hqs := quot_spec hf
  unfold toBytes
  rw [e1]
  simp only [Option.bind_eq_bind, Option.bind_some]
  generalize exRun FeWriteBytes.prog ([f0, f1, f2, f3, f4, f5, f6, f7, f8, f9] ++ List.replicate (FeWriteBytes.size - 10) 0)
    = env at *
  have hH : ((val [f0, f1, f2, f3, f4, f5, f6, f7, f8, f9]).val : Int) =
      valZ [f0, f1, f2, f3, f4, f5, f6, f7, f8, f9] % (2 ^ 255 - 19) := by
    rw [val, ZMod.val_intCast, p_int]
  generalize valZ [f0, f1, f2, f3, f4, f5, f6, f7, f8, f9] = H at *
  generalize quot f0 f1 f2 f3 f4 f5 f6 f7 f8 f9 = q at *
  have dig : ∀ i, i < 10 → 0 ≤ env.getD i 0 ∧ env.getD i 0 < 2 ^ 26 ∧ (i % 2 = 1 → env.getD i 0 < 2 ^ 25) := by
    intro i hi
    have := e2 (i, (0, if i % 2 = 0 then 2 ^ 26 - 1 else 2 ^ 25 - 1))
      (List.mem_map.mpr ⟨i, List.mem_range.mpr hi, rfl⟩)
    unfold In at this
    simp only at this
    split at this <;> omega
  have bv : ∀ i, i < 10 → (((BitVec.ofInt 32 (env.getD i 0)).toNat : Nat) : Int) = env.getD i 0 := by
    intro i hi
    have h1 := dig i hi
    rw [BitVec.toNat_ofInt]
    omega
  rw [storeBytes_spec _ (fun i hi => by have h1 := bv i hi; have h2 := dig i hi; omega)
    (fun i hi ho => by have h1 := bv i hi; have h2 := dig i hi; omega)]
  congr 2
  zify
  rw [bv 0 (by norm_num), bv 1 (by norm_num), bv 2 (by norm_num), bv 3 (by norm_num), bv 4 (by norm_num),
    bv 5 (by norm_num), bv 6 (by norm_num), bv 7 (by norm_num), bv 8 (by norm_num), bv 9 (by norm_num), hH]
  have e3 := Int.eq_of_sub_eq_zero (Int.zero_dvd.mp e3)
  simp only [W, wts, List.range, List.range.loop, List.map_cons, List.map_nil, List.cons_append, List.nil_append, wsum,
    Nat.zero_add, List.getD_cons_zero, List.getD_cons_succ, hq] at e3
  have g0 := dig 0 (by norm_num); have g1 := dig 1 (by norm_num); have g2 := dig 2 (by norm_num)
  have g3 := dig 3 (by norm_num); have g4 := dig 4 (by norm_num); have g5 := dig 5 (by norm_num)
  have g6 := dig 6 (by norm_num); have g7 := dig 7 (by norm_num); have g8 := dig 8 (by norm_num)
  have g9 := dig 9 (by norm_num)
  have k1 := g1.2.2 rfl; have k3 := g3.2.2 rfl; have k5 := g5.2.2 rfl; have k7 := g7.2.2 rfl; have k9 := g9.2.2 rfl
  clear bv dig e2 hH
  generalize env.getD 20 0 = c at *
  generalize env.getD 0 0 = d0 at *
  generalize env.getD 1 0 = d1 at *
  generalize env.getD 2 0 = d2 at *
  generalize env.getD 3 0 = d3 at *
  generalize env.getD 4 0 = d4 at *
  generalize env.getD 5 0 = d5 at *
  generalize env.getD 6 0 = d6 at *
  generalize env.getD 7 0 = d7 at *
  generalize env.getD 8 0 = d8 at *
  generalize env.getD 9 0 = d9 at *
  have lo : 0 ≤ d0 + 2 ^ 26 * d1 + 2 ^ 51 * d2 + 2 ^ 77 * d3 + 2 ^ 102 * d4 + 2 ^ 128 * d5 + 2 ^ 153 * d6 +
      2 ^ 179 * d7 + 2 ^ 204 * d8 + 2 ^ 230 * d9 := by
    linarith [g0.1, g1.1, g2.1, g3.1, g4.1, g5.1, g6.1, g7.1, g8.1, g9.1]
  have hi : d0 + 2 ^ 26 * d1 + 2 ^ 51 * d2 + 2 ^ 77 * d3 + 2 ^ 102 * d4 + 2 ^ 128 * d5 + 2 ^ 153 * d6 +
      2 ^ 179 * d7 + 2 ^ 204 * d8 + 2 ^ 230 * d9 < 2 ^ 255 := by
    have t0 := g0.2.1; have t2 := g2.2.1; have t4 := g4.2.1; have t6 := g6.2.1; have t8 := g8.2.1
    omega
  generalize hD : d0 + 2 ^ 26 * d1 + 2 ^ 51 * d2 + 2 ^ 77 * d3 + 2 ^ 102 * d4 + 2 ^ 128 * d5 + 2 ^ 153 * d6 +
      2 ^ 179 * d7 + 2 ^ 204 * d8 + 2 ^ 230 * d9 = D at *
  have e4 : D - 19 * q + 2 ^ 255 * c = H := by rw [← hD]; linarith
  obtain ⟨q1, q2⟩ := hqs
  have hc : c = q := by
    rcases lt_trichotomy c q with h | h | h
    · exfalso
      have : c ≤ q - 1 := by omega
      linarith
    · exact h
    · exfalso
      have : q + 1 ≤ c := by omega
      linarith
  rw [eq_comm]
  refine (Int.emod_emod_of_dvd _ (dvd_refl _)).symm.trans ?_
  have : H = D + (2 ^ 255 - 19) * q := by rw [← e4, hc]; ring
  rw [this, Int.add_mul_emod_self_left, Int.emod_emod_of_dvd _ (dvd_refl _), Int.emod_eq_of_lt lo]
  linarith

end CryptoPure.Model.Fe
