import Verif.Proofs.FeStore
import Verif.Model.Sc

/-! # Storing twelve 21-bit limbs as 32 bytes -/

namespace CryptoPure.Model.Sc
open SL Fe

theorem store_nat (d0 d1 d2 d3 d4 d5 d6 d7 d8 d9 d10 d11 : Nat)
    (h0 : d0 < 2 ^ 21) (h1 : d1 < 2 ^ 21) (h2 : d2 < 2 ^ 21) (h3 : d3 < 2 ^ 21) (h4 : d4 < 2 ^ 21) (h5 : d5 < 2 ^ 21) (h6 : d6 < 2 ^ 21) (h7 : d7 < 2 ^ 21) (h8 : d8 < 2 ^ 21) (h9 : d9 < 2 ^ 21) (h10 : d10 < 2 ^ 21) (h11 : d11 < 2 ^ 25) :
    ((d0 / 2 ^ 0 % 256) + 256 * ((d0 / 2 ^ 8 % 256) + 256 * (((d0 / 2 ^ 16 + d1 * 2 ^ 5) % 256) + 256 * ((d1 / 2 ^ 3 % 256) + 256 * ((d1 / 2 ^ 11 % 256) + 256 * (((d1 / 2 ^ 19 + d2 * 2 ^ 2) % 256) + 256 * ((d2 / 2 ^ 6 % 256) + 256 * (((d2 / 2 ^ 14 + d3 * 2 ^ 7) % 256) + 256 * ((d3 / 2 ^ 1 % 256) + 256 * ((d3 / 2 ^ 9 % 256) + 256 * (((d3 / 2 ^ 17 + d4 * 2 ^ 4) % 256) + 256 * ((d4 / 2 ^ 4 % 256) + 256 * ((d4 / 2 ^ 12 % 256) + 256 * (((d4 / 2 ^ 20 + d5 * 2 ^ 1) % 256) + 256 * ((d5 / 2 ^ 7 % 256) + 256 * (((d5 / 2 ^ 15 + d6 * 2 ^ 6) % 256) + 256 * ((d6 / 2 ^ 2 % 256) + 256 * ((d6 / 2 ^ 10 % 256) + 256 * (((d6 / 2 ^ 18 + d7 * 2 ^ 3) % 256) + 256 * ((d7 / 2 ^ 5 % 256) + 256 * ((d7 / 2 ^ 13 % 256) + 256 * ((d8 / 2 ^ 0 % 256) + 256 * ((d8 / 2 ^ 8 % 256) + 256 * (((d8 / 2 ^ 16 + d9 * 2 ^ 5) % 256) + 256 * ((d9 / 2 ^ 3 % 256) + 256 * ((d9 / 2 ^ 11 % 256) + 256 * (((d9 / 2 ^ 19 + d10 * 2 ^ 2) % 256) + 256 * ((d10 / 2 ^ 6 % 256) + 256 * (((d10 / 2 ^ 14 + d11 * 2 ^ 7) % 256) + 256 * ((d11 / 2 ^ 1 % 256) + 256 * ((d11 / 2 ^ 9 % 256) + 256 * ((d11 / 2 ^ 17 % 256) + 256 * 0)))))))))))))))))))))))))))))))) =
      2 ^ 0 * d0 + 2 ^ 21 * d1 + 2 ^ 42 * d2 + 2 ^ 63 * d3 + 2 ^ 84 * d4 + 2 ^ 105 * d5 + 2 ^ 126 * d6 + 2 ^ 147 * d7 + 2 ^ 168 * d8 + 2 ^ 189 * d9 + 2 ^ 210 * d10 + 2 ^ 231 * d11 := by
  have j2 : ((d0 / 2 ^ 16 + d1 * 2 ^ 5) % 256) = d0 / 2 ^ 16 + 2 ^ 5 * (d1 % 2 ^ 3) := by omega
  have j5 : ((d1 / 2 ^ 19 + d2 * 2 ^ 2) % 256) = d1 / 2 ^ 19 + 2 ^ 2 * (d2 % 2 ^ 6) := by omega
  have j7 : ((d2 / 2 ^ 14 + d3 * 2 ^ 7) % 256) = d2 / 2 ^ 14 + 2 ^ 7 * (d3 % 2 ^ 1) := by omega
  have j10 : ((d3 / 2 ^ 17 + d4 * 2 ^ 4) % 256) = d3 / 2 ^ 17 + 2 ^ 4 * (d4 % 2 ^ 4) := by omega
  have j13 : ((d4 / 2 ^ 20 + d5 * 2 ^ 1) % 256) = d4 / 2 ^ 20 + 2 ^ 1 * (d5 % 2 ^ 7) := by omega
  have j15 : ((d5 / 2 ^ 15 + d6 * 2 ^ 6) % 256) = d5 / 2 ^ 15 + 2 ^ 6 * (d6 % 2 ^ 2) := by omega
  have j18 : ((d6 / 2 ^ 18 + d7 * 2 ^ 3) % 256) = d6 / 2 ^ 18 + 2 ^ 3 * (d7 % 2 ^ 5) := by omega
  have j23 : ((d8 / 2 ^ 16 + d9 * 2 ^ 5) % 256) = d8 / 2 ^ 16 + 2 ^ 5 * (d9 % 2 ^ 3) := by omega
  have j26 : ((d9 / 2 ^ 19 + d10 * 2 ^ 2) % 256) = d9 / 2 ^ 19 + 2 ^ 2 * (d10 % 2 ^ 6) := by omega
  have j28 : ((d10 / 2 ^ 14 + d11 * 2 ^ 7) % 256) = d10 / 2 ^ 14 + 2 ^ 7 * (d11 % 2 ^ 1) := by omega
  have s0 : d0 = 2 ^ 0 * (d0 / 2 ^ 0 % 256) + 2 ^ 8 * (d0 / 2 ^ 8 % 256) + 2 ^ 16 * (d0 / 2 ^ 16) := by omega
  have s1 : d1 = d1 % 2 ^ 3 + 2 ^ 3 * (d1 / 2 ^ 3 % 256) + 2 ^ 11 * (d1 / 2 ^ 11 % 256) + 2 ^ 19 * (d1 / 2 ^ 19) := by omega
  have s2 : d2 = d2 % 2 ^ 6 + 2 ^ 6 * (d2 / 2 ^ 6 % 256) + 2 ^ 14 * (d2 / 2 ^ 14) := by omega
  have s3 : d3 = d3 % 2 ^ 1 + 2 ^ 1 * (d3 / 2 ^ 1 % 256) + 2 ^ 9 * (d3 / 2 ^ 9 % 256) + 2 ^ 17 * (d3 / 2 ^ 17) := by omega
  have s4 : d4 = d4 % 2 ^ 4 + 2 ^ 4 * (d4 / 2 ^ 4 % 256) + 2 ^ 12 * (d4 / 2 ^ 12 % 256) + 2 ^ 20 * (d4 / 2 ^ 20) := by omega
  have s5 : d5 = d5 % 2 ^ 7 + 2 ^ 7 * (d5 / 2 ^ 7 % 256) + 2 ^ 15 * (d5 / 2 ^ 15) := by omega
  have s6 : d6 = d6 % 2 ^ 2 + 2 ^ 2 * (d6 / 2 ^ 2 % 256) + 2 ^ 10 * (d6 / 2 ^ 10 % 256) + 2 ^ 18 * (d6 / 2 ^ 18) := by omega
  have s7 : d7 = d7 % 2 ^ 5 + 2 ^ 5 * (d7 / 2 ^ 5 % 256) + 2 ^ 13 * (d7 / 2 ^ 13 % 256) := by omega
  have s8 : d8 = 2 ^ 0 * (d8 / 2 ^ 0 % 256) + 2 ^ 8 * (d8 / 2 ^ 8 % 256) + 2 ^ 16 * (d8 / 2 ^ 16) := by omega
  have s9 : d9 = d9 % 2 ^ 3 + 2 ^ 3 * (d9 / 2 ^ 3 % 256) + 2 ^ 11 * (d9 / 2 ^ 11 % 256) + 2 ^ 19 * (d9 / 2 ^ 19) := by omega
  have s10 : d10 = d10 % 2 ^ 6 + 2 ^ 6 * (d10 / 2 ^ 6 % 256) + 2 ^ 14 * (d10 / 2 ^ 14) := by omega
  have s11 : d11 = d11 % 2 ^ 1 + 2 ^ 1 * (d11 / 2 ^ 1 % 256) + 2 ^ 9 * (d11 / 2 ^ 9 % 256) + 2 ^ 17 * (d11 / 2 ^ 17 % 256) := by omega
  rw [j2, j5, j7, j10, j13, j15, j18, j23, j26, j28]
  linear_combination (exp := 1) 0 - 2 ^ 0 * s0 - 2 ^ 21 * s1 - 2 ^ 42 * s2 - 2 ^ 63 * s3 - 2 ^ 84 * s4 - 2 ^ 105 * s5 - 2 ^ 126 * s6 - 2 ^ 147 * s7 - 2 ^ 168 * s8 - 2 ^ 189 * s9 - 2 ^ 210 * s10 - 2 ^ 231 * s11

theorem sshr_toNat {x : BitVec 64} (k : Nat) (h : x.toNat < 2 ^ 63) : (x.sshiftRight k).toNat = x.toNat / 2 ^ k := by
  have : x.msb = false := by rw [BitVec.msb_eq_decide]; simp; omega
  rw [BitVec.sshiftRight_eq_of_msb_false this, BitVec.toNat_ushiftRight, Nat.shiftRight_eq_div_pow]

theorem byte_r {x : BitVec 64} (k : Nat) (h : x.toNat < 2 ^ 63) :
    ((x.sshiftRight k).setWidth 8).toNat = x.toNat / 2 ^ k % 256 := by
  rw [BitVec.toNat_setWidth, sshr_toNat k h]

theorem byte_j {x y : BitVec 64} (k k' : Nat) (hx : x.toNat < 2 ^ 63) (hy : y.toNat < 2 ^ 26) (hk : x.toNat / 2 ^ k < 2 ^ k')
    (hk' : k' ≤ 8) :
    ((x.sshiftRight k ||| (y <<< k')).setWidth 8).toNat = (x.toNat / 2 ^ k + y.toNat * 2 ^ k') % 256 := by
  have h2 : 2 ^ k' ≤ 2 ^ 8 := Nat.pow_le_pow_right (by norm_num) hk'
  have h3 : y.toNat * 2 ^ k' < 2 ^ 64 := lt_of_le_of_lt (Nat.mul_le_mul_left _ h2) (by omega)
  rw [BitVec.toNat_setWidth, BitVec.toNat_or, sshr_toNat k hx, BitVec.toNat_shiftLeft, Nat.shiftLeft_eq,
    Nat.mod_eq_of_lt h3, Nat.or_comm, ← Nat.shiftLeft_eq, ← Nat.shiftLeft_add_eq_or_of_lt hk, Nat.shiftLeft_eq,
    Nat.add_comm]

set_option maxHeartbeats 1000000 in
theorem store_spec (h : Nat → BitVec 64) (he : ∀ i, i < 11 → (h i).toNat < 2 ^ 21) (ho : (h 11).toNat < 2 ^ 25) :
    store h = toLE 32 (2 ^ 0 * (h 0).toNat + 2 ^ 21 * (h 1).toNat + 2 ^ 42 * (h 2).toNat + 2 ^ 63 * (h 3).toNat + 2 ^ 84 * (h 4).toNat + 2 ^ 105 * (h 5).toNat + 2 ^ 126 * (h 6).toNat + 2 ^ 147 * (h 7).toNat + 2 ^ 168 * (h 8).toNat + 2 ^ 189 * (h 9).toNat + 2 ^ 210 * (h 10).toNat + 2 ^ 231 * (h 11).toNat) := by
  have hl : (store h).length = 32 := rfl
  have key : leNat (store h) = 2 ^ 0 * (h 0).toNat + 2 ^ 21 * (h 1).toNat + 2 ^ 42 * (h 2).toNat + 2 ^ 63 * (h 3).toNat + 2 ^ 84 * (h 4).toNat + 2 ^ 105 * (h 5).toNat + 2 ^ 126 * (h 6).toNat + 2 ^ 147 * (h 7).toNat + 2 ^ 168 * (h 8).toNat + 2 ^ 189 * (h 9).toNat + 2 ^ 210 * (h 10).toNat + 2 ^ 231 * (h 11).toNat := by
    have h0 := he 0 (by norm_num)
    have h1 := he 1 (by norm_num)
    have h2 := he 2 (by norm_num)
    have h3 := he 3 (by norm_num)
    have h4 := he 4 (by norm_num)
    have h5 := he 5 (by norm_num)
    have h6 := he 6 (by norm_num)
    have h7 := he 7 (by norm_num)
    have h8 := he 8 (by norm_num)
    have h9 := he 9 (by norm_num)
    have h10 := he 10 (by norm_num)
    have := store_nat _ _ _ _ _ _ _ _ _ _ _ _ h0 h1 h2 h3 h4 h5 h6 h7 h8 h9 h10 ho
    rw [← this]
    clear this
    simp only [store, List.map_cons, List.map_nil, leNat]
    rw [byte_j (x := h 0) (y := h 1) 16 5 (by omega) (by omega) (by omega) (by norm_num), byte_j (x := h 1) (y := h 2) 19 2 (by omega) (by omega) (by omega) (by norm_num), byte_j (x := h 2) (y := h 3) 14 7 (by omega) (by omega) (by omega) (by norm_num), byte_j (x := h 3) (y := h 4) 17 4 (by omega) (by omega) (by omega) (by norm_num), byte_j (x := h 4) (y := h 5) 20 1 (by omega) (by omega) (by omega) (by norm_num), byte_j (x := h 5) (y := h 6) 15 6 (by omega) (by omega) (by omega) (by norm_num), byte_j (x := h 6) (y := h 7) 18 3 (by omega) (by omega) (by omega) (by norm_num), byte_j (x := h 8) (y := h 9) 16 5 (by omega) (by omega) (by omega) (by norm_num), byte_j (x := h 9) (y := h 10) 19 2 (by omega) (by omega) (by omega) (by norm_num), byte_j (x := h 10) (y := h 11) 14 7 (by omega) (by omega) (by omega) (by norm_num)]
    simp only [byte_r (x := h 0) _ (by omega), byte_r (x := h 1) _ (by omega), byte_r (x := h 2) _ (by omega), byte_r (x := h 3) _ (by omega), byte_r (x := h 4) _ (by omega), byte_r (x := h 5) _ (by omega), byte_r (x := h 6) _ (by omega), byte_r (x := h 7) _ (by omega), byte_r (x := h 8) _ (by omega), byte_r (x := h 9) _ (by omega), byte_r (x := h 10) _ (by omega), byte_r (x := h 11) _ (by omega)]
  rw [← key, ← hl, toLE_leNat]

end CryptoPure.Model.Sc
