import Verif.Spec.DhGame
import Verif.Proofs.Draw
import Verif.Props.FreshKeys
import Verif.Props.KeyExchange

/-! # Random self-reduction of the Diffie-Hellman problem of X25519 -/

namespace CryptoPure.DhGame
open Spec.X25519 Prog Montgomery
open Spec.Ed25519 (L)
open Props.X25519 Props.FreshKeys Ladder
open MontOrder (prime_L)

theorem L_lt : L < 2 ^ 255 := by unfold L; decide +kernel

theorem point_eq {P : (curve (486662 : Spec.F)).Point} (hP : x0 P = 9) {a : Nat} (ha : a < 2 ^ 255) : point a = encodeU (x0 (a • P)) := by
  unfold point times
  rw [decodeU_nine]
  exact congrArg encodeU (ladder_spec (K := Spec.F) ha 9 P hP)

theorem times_eq {r : Nat} (hr : r < 2 ^ 255) (Q : (curve (486662 : Spec.F)).Point) : times r (encodeU (x0 Q)) = encodeU (x0 (r • Q)) := by
  unfold times
  rw [decode_encode]
  exact congrArg encodeU (ladder_spec (K := Spec.F) hr (x0 Q) Q rfl)

theorem mod_smul {P : (curve (486662 : Spec.F)).Point} (ho : addOrderOf P = L) (n : Nat) : (n % L) • P = n • P := by
  rw [← ho]
  exact mod_addOrderOf_nsmul P n

theorem L_pos : 0 < L := Ed.L_pos

theorem mod_lt' (n : Nat) : n % L < 2 ^ 255 := (Nat.mod_lt n L_pos).trans L_lt

theorem times_point {r a : Nat} (hr : r < 2 ^ 255) (ha : a < 2 ^ 255) : times r (point a) = point (r * a % L) := by
  obtain ⟨P, hP, ho⟩ := base_order
  rw [point_eq hP ha, times_eq hr, point_eq hP (mod_lt' _), mod_smul ho, mul_smul]

theorem inverse_lt (r : Nat) : inverse r < 2 ^ 255 := by
  have : NeZero L := ⟨L_pos.ne'⟩
  exact (ZMod.val_lt _).trans L_lt

theorem unmask {r s a b : Nat} (hr : ¬ L ∣ r) (hs : ¬ L ∣ s) :
    times (inverse (r * s)) (point (r * a % L * (s * b % L) % L)) = point (a * b % L) := by
  have : Fact L.Prime := ⟨prime_L⟩
  have : NeZero L := ⟨L_pos.ne'⟩
  rw [times_point (inverse_lt _) (mod_lt' _)]
  congr 1
  have h0 : ((r * s : Nat) : ZMod L) ≠ 0 := by
    rw [Ne, ZMod.natCast_eq_zero_iff]
    exact L_not_dvd_mul hr hs
  have e : ((inverse (r * s) * (r * a % L * (s * b % L) % L) : Nat) : ZMod L) = ((a * b : Nat) : ZMod L) := by
    unfold inverse
    push_cast
    rw [ZMod.natCast_mod]
    push_cast
    rw [ZMod.natCast_val, ZMod.cast_id', id]
    have h1 : ((r : ZMod L) * s) ≠ 0 := by exact_mod_cast h0
    rw [ZMod.natCast_mod, ZMod.natCast_mod]
    push_cast
    have hr' : (r : ZMod L) ≠ 0 := left_ne_zero_of_mul h1
    have hs' : (s : ZMod L) ≠ 0 := right_ne_zero_of_mul h1
    field_simp
  exact (ZMod.natCast_eq_natCast_iff' _ _ _).mp e

attribute [local irreducible] L

theorem chance_nonneg (D : Solver) (a b : Nat) : 0 ≤ chance D a b := pr_nonneg _ _

theorem unit_ex (g : Nat → ℚ) : unit.ex g = (∑ i : Fin (L - 1), g (i + 1)) / ((L - 1 : Nat) : ℚ) := rfl

theorem one_lt_L : 1 < L := prime_L.one_lt

theorem unit_not_dvd (i : Fin (L - 1)) : ¬ L ∣ i.val + 1 := L_not_dvd (Nat.succ_pos _) (by have := i.isLt; omega)

/-- Multiplying by `a` modulo `L`. -/
theorem sum_scale {a : Nat} (ha : ¬ L ∣ a) (g : Nat → ℚ) : (∑ i : Fin (L - 1), g ((i.val + 1) * a % L)) = ∑ i : Fin (L - 1), g (i + 1) := by
  have hpos : ∀ i : Fin (L - 1), 0 < (i.val + 1) * a % L := fun i =>
    Nat.pos_of_ne_zero fun h => L_not_dvd_mul (unit_not_dvd i) ha (Nat.dvd_of_mod_eq_zero h)
  have hlt : ∀ i : Fin (L - 1), (i.val + 1) * a % L < L := fun i => Nat.mod_lt _ L_pos
  let e : Fin (L - 1) → Fin (L - 1) := fun i => ⟨(i.val + 1) * a % L - 1, by have := hpos i; have := hlt i; omega⟩
  have hinj : Function.Injective e := by
    intro i j h
    have h1 : (i.val + 1) * a % L - 1 = (j.val + 1) * a % L - 1 := Fin.mk.inj_iff.mp h
    have h2 : (i.val + 1) * a ≡ (j.val + 1) * a [MOD L] := by
      have := hpos i; have := hpos j
      show _ % L = _ % L
      omega
    have hc : Nat.Coprime L a := (Nat.Prime.coprime_iff_not_dvd prime_L).mpr ha
    have h3 := Nat.ModEq.cancel_right_of_coprime hc h2
    have h4 := Nat.ModEq.eq_of_lt_of_lt h3 (by have := i.isLt; omega) (by have := j.isLt; omega)
    ext
    omega
  refine Fintype.sum_equiv (Equiv.ofBijective e (Finite.injective_iff_bijective.mp hinj)) _ _ fun i => ?_
  show g _ = g ((i.val + 1) * a % L - 1 + 1)
  rw [Nat.sub_add_cancel (hpos i)]

theorem chance_masked (D : Solver) {a b : Nat} (ha : a < 2 ^ 255) (hb : b < 2 ^ 255) (ha' : ¬ L ∣ a) (hb' : ¬ L ∣ b) :
    average D ≤ chance (masked D) a b := by
  classical
  have hlt : ∀ i : Fin (L - 1), i.val + 1 < 2 ^ 255 := fun i => by
    have h1 := L_lt
    generalize (2 : Nat) ^ 255 = w at *
    have := i.isLt
    omega
  have h1 : chance (masked D) a b = (∑ r : Fin (L - 1), (∑ s : Fin (L - 1),
      (D (point ((r.val + 1) * a % L)) (point ((s.val + 1) * b % L))).ex fun z =>
        if z.map (times (inverse ((r.val + 1) * (s.val + 1)))) = some (point (a * b % L)) then 1 else 0) / ((L - 1 : Nat) : ℚ)) / ((L - 1 : Nat) : ℚ) := by
    unfold chance masked Prog.pr
    rw [ex_bind, unit_ex]
    congr 1
    refine Finset.sum_congr rfl fun r _ => ?_
    rw [ex_bind, unit_ex]
    congr 1
    refine Finset.sum_congr rfl fun s _ => ?_
    rw [ex_bind, times_point (hlt r) ha, times_point (hlt s) hb]
    congr 1
    funext z
    rw [ex_done]
    congr 1
  have h2 : average D = (∑ r : Fin (L - 1), (∑ s : Fin (L - 1), chance D ((r.val + 1) * a % L) ((s.val + 1) * b % L)) / ((L - 1 : Nat) : ℚ)) / ((L - 1 : Nat) : ℚ) := by
    unfold average
    rw [← Finset.sum_div, div_div, ← sq]
    refine congrArg (· / ((L - 1 : Nat) : ℚ) ^ 2) ?_
    rw [← sum_scale ha' fun x => ∑ s : Fin (L - 1), chance D x (s + 1)]
    refine Finset.sum_congr rfl fun r _ => ?_
    rw [← sum_scale hb' fun x => chance D _ x]
  rw [h1, h2]
  have hn : (0 : ℚ) ≤ ((L - 1 : Nat) : ℚ) := Nat.cast_nonneg _
  refine div_le_div_of_nonneg_right (Finset.sum_le_sum fun r _ => div_le_div_of_nonneg_right (Finset.sum_le_sum fun s _ => ?_) hn) hn
  unfold chance Prog.pr
  refine ex_mono fun z => ?_
  by_cases h : z = some (point ((r.val + 1) * a % L * ((s.val + 1) * b % L) % L))
  · rw [if_pos h, if_pos]
    rw [h, Option.map_some, unmask (unit_not_dvd r) (unit_not_dvd s)]
  · rw [if_neg h]
    split <;> norm_num

/-! ## Clamped scalars -/

noncomputable instance : Fintype SecretKey := Fintype.ofFinite _

theorem card_secret : (Fintype.card SecretKey : ℚ) = 32 * 2 ^ 251 := by
  rw [← Nat.card_eq_fintype_card, Props.card_digest, show (256 : Nat) ^ 32 = 32 * 2 ^ 251 by norm_num]
  norm_num

theorem sum_clamped (g : Nat → ℚ) (h0 : ∀ x, 0 ≤ g x) : (∑ k : Fin (2 ^ 251), g ((k.val * 8 + 2 ^ 254) % L)) ≤ ∑ x : Fin (L - 1), g (x + 1) := by
  classical
  have hpos : ∀ k : Fin (2 ^ 251), 0 < (k.val * 8 + 2 ^ 254) % L := by
    intro k
    refine Nat.pos_of_ne_zero fun h => ?_
    have h1 := Nat.dvd_of_mod_eq_zero h
    rw [show k.val * 8 + 2 ^ 254 = 8 * (k.val + 2 ^ 251) by omega] at h1
    have h8 : 8 < L := by unfold L; decide +kernel
    have h2 : 2 ^ 251 + 2 ^ 251 < L := by unfold L; decide +kernel
    refine L_not_dvd_mul (L_not_dvd (by norm_num) h8) (L_not_dvd ?_ ?_) h1
    · exact Nat.add_pos_right _ (by positivity)
    · exact (Nat.add_lt_add_right k.isLt _).trans h2
  have hlt : ∀ k : Fin (2 ^ 251), (k.val * 8 + 2 ^ 254) % L < L := fun k => Nat.mod_lt _ L_pos
  obtain ⟨e, he⟩ : ∃ e : Fin (2 ^ 251) → Fin (L - 1), ∀ k, (e k).val + 1 = (k.val * 8 + 2 ^ 254) % L :=
    ⟨fun k => ⟨(k.val * 8 + 2 ^ 254) % L - 1, by have := hpos k; have := hlt k; omega⟩, fun k => Nat.sub_add_cancel (hpos k)⟩
  have hinj : Function.Injective e := by
    intro a b h
    have h2 : a.val * 8 + 2 ^ 254 ≡ b.val * 8 + 2 ^ 254 [MOD L] := by
      show _ % L = _ % L
      rw [← he, ← he, h]
    have h3 := Nat.ModEq.add_right_cancel' _ h2
    have hc : Nat.Coprime L 8 := by unfold L; decide +kernel
    have h4 := Nat.ModEq.cancel_right_of_coprime hc h3
    have h5 : 2 ^ 251 < L := by unfold L; decide +kernel
    ext
    exact Nat.ModEq.eq_of_lt_of_lt h4 (a.isLt.trans h5) (b.isLt.trans h5)
  calc _ = ∑ k : Fin (2 ^ 251), g ((e k).val + 1) := Finset.sum_congr rfl fun k _ => by rw [he]
    _ = ∑ x ∈ Finset.univ.image e, g (x.val + 1) :=
      (Finset.sum_image (f := fun x : Fin (L - 1) => g (x.val + 1)) (s := Finset.univ) (g := e) fun a _ b _ h => hinj h).symm
    _ ≤ _ := Finset.sum_le_sum_of_subset_of_nonneg (Finset.subset_univ _) fun x _ _ => h0 _

theorem secret_fiber (k : Nat) : (Finset.univ.filter fun sk : SecretKey => leNat sk.1 % 2 ^ 254 / 8 = k).card ≤ 32 := by
  classical
  have h := ncard_scalar_le 32 (k * 8 + 2 ^ 254) le_rfl
  rw [Nat.sub_self, pow_zero, mul_one] at h
  refine le_trans ?_ h
  rw [← Set.ncard_coe_finset]
  refine Set.ncard_le_ncard (fun sk hs => ?_) (Set.toFinite _)
  simp only [Finset.coe_filter, Finset.mem_univ, true_and, Set.mem_ofPred_eq] at hs ⊢
  rw [List.take_of_length_le (by rw [sk.2]), hs]

theorem secret_mean (g : Nat → ℚ) (h0 : ∀ x, 0 ≤ g x) :
    (∑ sk : SecretKey, g (decodeScalar sk.1 % L)) / Fintype.card SecretKey ≤ (∑ x : Fin (L - 1), g (x + 1)) / 2 ^ 251 := by
  classical
  have hk : ∀ sk : SecretKey, leNat sk.1 % 2 ^ 254 / 8 < 2 ^ 251 := fun sk => by
    rw [Nat.div_lt_iff_lt_mul (by norm_num), show (2 : Nat) ^ 251 * 8 = 2 ^ 254 by decide +kernel]
    exact Nat.mod_lt _ (by positivity)
  have e1 : ∑ sk : SecretKey, g (decodeScalar sk.1 % L) = ∑ k : Fin (2 ^ 251),
      ((Finset.univ.filter fun sk : SecretKey => leNat sk.1 % 2 ^ 254 / 8 = k.val).card : ℚ) * g ((k.val * 8 + 2 ^ 254) % L) := by
    rw [← Finset.sum_fiberwise_of_maps_to (s := Finset.univ) (t := Finset.univ)
      (g := fun sk : SecretKey => (⟨leNat sk.1 % 2 ^ 254 / 8, hk sk⟩ : Fin (2 ^ 251))) (fun _ _ => Finset.mem_univ _)]
    refine Finset.sum_congr rfl fun k _ => ?_
    rw [Finset.sum_congr rfl (g := fun _ => g ((k.val * 8 + 2 ^ 254) % L))]
    · rw [Finset.sum_const, nsmul_eq_mul]
      congr 3
      ext i
      simp only [Finset.mem_filter, Finset.mem_univ, true_and, Fin.ext_iff]
    · intro sk hs
      simp only [Finset.mem_filter, Finset.mem_univ, true_and] at hs
      rw [← hs]
      rfl
  have e2 : ∑ sk : SecretKey, g (decodeScalar sk.1 % L) ≤ 32 * ∑ x : Fin (L - 1), g (x + 1) := by
    rw [e1]
    refine le_trans ?_ (mul_le_mul_of_nonneg_left (sum_clamped g h0) (by norm_num))
    rw [Finset.mul_sum]
    refine Finset.sum_le_sum fun k _ => mul_le_mul_of_nonneg_right ?_ (h0 _)
    exact_mod_cast secret_fiber k.val
  rw [card_secret, div_le_div_iff₀ (mul_pos (by norm_num) (pow_pos two_pos _)) (pow_pos two_pos _)]
  calc _ ≤ (32 * ∑ x : Fin (L - 1), g (x + 1)) * 2 ^ 251 := mul_le_mul_of_nonneg_right e2 (pow_nonneg zero_le_two _)
    _ = _ := by ring

end CryptoPure.DhGame
