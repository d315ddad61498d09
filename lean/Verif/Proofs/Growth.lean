import Mathlib.Combinatorics.Additive.CauchyDavenport
import Mathlib.Algebra.Field.ZMod
import Mathlib.Algebra.Order.BigOperators.Group.Finset
import Mathlib.Data.Fintype.Prod
import Mathlib.Tactic.Linarith
import Mathlib.Tactic.FieldSimp
import Mathlib.Tactic.LinearCombination
import Mathlib.Tactic.Ring
import Mathlib.Tactic.Positivity
import Mathlib.Algebra.BigOperators.Ring.Finset

/-! # Which pairs of accumulators can be reached by a few blocks

Two Horner evaluations `a ↦ (a + x) r` and `b ↦ (b + x) r'` are fed the same `x`, chosen from a set `I` of more than a quarter of
the field. After 24 steps every pair of results can be had. -/

namespace CryptoPure.Proofs.Growth
open Finset
open scoped Pointwise

variable {p : ℕ} [hp : Fact p.Prime]

local notation "F" => ZMod p

/-- Move along rows by the elements of `I`. -/
def addRow (I : Finset (ZMod p)) (Y : Finset (ZMod p × ZMod p)) : Finset (ZMod p × ZMod p) :=
  (Y ×ˢ I).image fun z => (z.1.1 + z.2, z.1.2)

/-- Move along columns by the elements of `I`. -/
def addCol (I : Finset (ZMod p)) (Y : Finset (ZMod p × ZMod p)) : Finset (ZMod p × ZMod p) :=
  (Y ×ˢ I).image fun z => (z.1.1, z.1.2 + z.2)

theorem addRow_snd (I : Finset (ZMod p)) (hI : I.Nonempty) (Y : Finset (ZMod p × ZMod p)) :
    (addRow I Y).image Prod.snd = Y.image Prod.snd := by
  obtain ⟨i, hi⟩ := hI
  ext u
  simp only [addRow, mem_image, mem_product, Prod.exists]
  constructor
  · rintro ⟨a, b, ⟨a', b', c, ⟨h1, h2⟩, h3⟩, rfl⟩
    simp only [Prod.mk.injEq] at h3
    exact ⟨a', b', h1, h3.2⟩
  · rintro ⟨a, b, h, rfl⟩
    exact ⟨a + i, b, ⟨a, b, i, ⟨h, hi⟩, rfl⟩, rfl⟩

theorem min_bound (p M g : ℕ) (hM : M ≤ p) (hg : g ≤ p) : p * g + M * (p - g) ≤ p * min p (g + M) := by
  obtain ⟨k, rfl⟩ := Nat.exists_eq_add_of_le hg
  rw [Nat.add_sub_cancel_left]
  rcases le_total (g + k) (g + M) with h | h
  · rw [min_eq_left h]
    have : M * k ≤ (g + k) * k := Nat.mul_le_mul_right _ hM
    nlinarith
  · rw [min_eq_right h]
    have h' : k ≤ g + k := by omega
    have : M * k ≤ (g + k) * M := by rw [mul_comm]; exact Nat.mul_le_mul_right _ h'
    nlinarith

theorem card_addRow (I : Finset (ZMod p)) (M : ℕ) (hI : I.card = M + 1) (hM : M ≤ p) (Y : Finset (ZMod p × ZMod p)) :
    p * Y.card + M * (p * (Y.image Prod.snd).card) ≤ p * (addRow I Y).card + M * Y.card := by
  have hIn : I.Nonempty := card_pos.mp (by omega)
  have h1 : Y.card = ∑ u ∈ Y.image Prod.snd, (Y.filter fun z => z.2 = u).card :=
    card_eq_sum_card_fiberwise fun z hz => mem_image_of_mem _ hz
  have h2 : (addRow I Y).card = ∑ u ∈ Y.image Prod.snd, ((addRow I Y).filter fun z => z.2 = u).card := by
    rw [← addRow_snd I hIn Y]
    exact card_eq_sum_card_fiberwise fun z hz => mem_image_of_mem _ hz
  have key : ∀ u ∈ Y.image Prod.snd, p * (Y.filter fun z => z.2 = u).card + M * p ≤
      p * ((addRow I Y).filter fun z => z.2 = u).card + M * (Y.filter fun z => z.2 = u).card := by
    intro u hu
    set S := (Y.filter fun z => z.2 = u).image Prod.fst with hS
    have hSc : S.card = (Y.filter fun z => z.2 = u).card := by
      apply card_image_of_injOn
      rintro ⟨a, b⟩ ha ⟨c, d⟩ hc h
      simp only [coe_filter, Set.mem_ofPred_eq] at ha hc h
      rw [h, ha.2, hc.2]
    have hSn : S.Nonempty := by
      obtain ⟨z, hz, rfl⟩ := mem_image.mp hu
      exact ⟨z.1, mem_image.mpr ⟨z, mem_filter.mpr ⟨hz, rfl⟩, rfl⟩⟩
    have hcd := ZMod.cauchy_davenport hp.out hSn hIn
    rw [hI, show S.card + (M + 1) - 1 = S.card + M by omega] at hcd
    have hle : (S + I).card ≤ ((addRow I Y).filter fun z => z.2 = u).card := by
      apply card_le_card_of_injOn fun t => (t, u)
      · intro t ht
        obtain ⟨a, ha, b, hb, rfl⟩ := mem_add.mp ht
        obtain ⟨z, hz, rfl⟩ := mem_image.mp ha
        obtain ⟨hz1, hz2⟩ := mem_filter.mp hz
        refine mem_filter.mpr ⟨mem_image.mpr ⟨(z, b), mem_product.mpr ⟨hz1, hb⟩, ?_⟩, rfl⟩
        simp [hz2]
      · intro a _ b _ h
        exact (Prod.mk.inj h).1
    have hSp : S.card ≤ p := by
      have := card_le_univ S
      rwa [ZMod.card] at this
    have hb := min_bound p M S.card hM hSp
    have := Nat.mul_le_mul_left p (hcd.trans hle)
    rw [← hSc]
    have e : M * (p - S.card) + M * S.card = M * p := by rw [← Nat.mul_add]; congr 1; omega
    omega
  have hsum := sum_le_sum key
  rw [sum_add_distrib, sum_add_distrib, ← mul_sum, ← mul_sum, ← mul_sum, ← mul_sum, ← h1, ← h2, sum_const, smul_eq_mul] at hsum
  calc _ = p * Y.card + M * ((Y.image Prod.snd).card * p) := by ring
    _ ≤ _ := hsum

theorem card_swap (Y : Finset (ZMod p × ZMod p)) : (Y.image Prod.swap).card = Y.card :=
  card_image_of_injective _ Prod.swap_injective

theorem addCol_swap (I : Finset (ZMod p)) (Y : Finset (ZMod p × ZMod p)) :
    addCol I Y = (addRow I (Y.image Prod.swap)).image Prod.swap := by
  ext ⟨a, b⟩
  simp only [addRow, addCol, mem_image, mem_product, Prod.exists, Prod.mk.injEq, Prod.swap_prod_mk]
  constructor
  · rintro ⟨x, y, i, ⟨h, hi⟩, rfl, rfl⟩
    exact ⟨y + i, x, ⟨y, x, i, ⟨⟨x, y, h, rfl, rfl⟩, hi⟩, rfl, rfl⟩, rfl, rfl⟩
  · rintro ⟨x, y, ⟨x', y', i, ⟨⟨x'', y'', h, rfl, rfl⟩, hi⟩, rfl, rfl⟩, rfl, rfl⟩
    exact ⟨_, _, i, ⟨h, hi⟩, rfl, rfl⟩

theorem card_addCol (I : Finset (ZMod p)) (M : ℕ) (hI : I.card = M + 1) (hM : M ≤ p) (Y : Finset (ZMod p × ZMod p)) :
    p * Y.card + M * (p * (Y.image Prod.fst).card) ≤ p * (addCol I Y).card + M * Y.card := by
  have h := card_addRow I M hI hM (Y.image Prod.swap)
  rw [card_swap, image_image] at h
  rw [addCol_swap, card_swap]
  exact h

/-- The arithmetic of one double step. -/
theorem step_arith (p M s s' s'' L L' : ℤ) (hs : p ^ 2 ≤ 16 * s) (hss : s ≤ s') (hM : p ≤ 4 * M) (hp : 0 < p)
    (h1 : p * s + M * (p * L) ≤ p * s' + M * s) (h2 : p * s' + M * (p * L') ≤ p * s'' + M * s')
    (hL : s' ≤ L * L') (hL0 : 0 ≤ L) (hL1 : 0 ≤ L') (hhalf : 2 * s' ≤ p ^ 2) : 32 * s + 3 * p ^ 2 ≤ 32 * s'' := by
  set q := L + L' with hq
  have hq2 : 4 * s' ≤ q ^ 2 := by nlinarith [sq_nonneg (L - L')]
  have hq0 : 0 ≤ q := by omega
  have hqp : p ≤ 2 * q := by
    by_contra hcon
    have : (2 * q) ^ 2 < p ^ 2 := by nlinarith
    nlinarith
  have hM0 : 0 < M := by linarith
  -- `p q - 2 s' ≥ 3/8 p^2`
  have hgain : 3 * p ^ 2 ≤ 8 * (p * q - 2 * s') := by
    rcases le_or_gt (2 * q) (3 * p) with h | h
    · have : 0 ≤ (2 * q - p) * (3 * p - 2 * q) := mul_nonneg (by linarith) (by linarith)
      nlinarith
    · nlinarith
  have hsum : p * s + M * (p * q - 2 * s') ≤ p * s'' := by nlinarith
  have h3 : p * (3 * p ^ 2) ≤ 32 * (M * (p * q - 2 * s')) := by
    have : p * (3 * p ^ 2) ≤ (4 * M) * (8 * (p * q - 2 * s')) :=
      mul_le_mul hM hgain (by positivity) (by positivity)
    linarith
  have : p * (32 * s + 3 * p ^ 2) ≤ p * (32 * s'') := by linarith
  exact le_of_mul_le_mul_left this hp

/-- One step of the two evaluations from all pairs in `X`. -/
def stp (r r' : ZMod p) (I : Finset (ZMod p)) (X : Finset (ZMod p × ZMod p)) : Finset (ZMod p × ZMod p) :=
  (X ×ˢ I).image fun z => ((z.1.1 + z.2) * r, (z.1.2 + z.2) * r')

/-- Coordinates in which two steps move along rows and columns. -/
def coord (r r' : ZMod p) (z : ZMod p × ZMod p) : ZMod p × ZMod p := (z.1 + z.2 / r, z.1 + z.2 / r')

theorem coord_inj {r r' : ZMod p} (hr : r ≠ 0) (hr' : r' ≠ 0) (hne : r ≠ r') : Function.Injective (coord r r') := by
  rintro ⟨t, u⟩ ⟨t', u'⟩ h
  simp only [coord, Prod.mk.injEq] at h
  obtain ⟨h1, h2⟩ := h
  have h3 : (u - u') * (r' - r) = 0 := by
    have e1 : (u - u') / r = t' - t := by rw [sub_div]; linear_combination h1
    have e2 : (u - u') / r' = t' - t := by rw [sub_div]; linear_combination h2
    rw [div_eq_iff hr] at e1
    rw [div_eq_iff hr'] at e2
    have e3 : (t' - t) * (r - r') = 0 := by linear_combination e2 - e1
    have e4 : t' - t = 0 := (mul_eq_zero.mp e3).resolve_right (sub_ne_zero.mpr hne)
    rw [e1, e4]; ring
  have h4 : u = u' := sub_eq_zero.mp ((mul_eq_zero.mp h3).resolve_right (sub_ne_zero.mpr hne.symm))
  subst h4
  rw [add_left_inj] at h1
  rw [h1]

theorem scale_inj {r r' : ZMod p} (hr : r ≠ 0) (hr' : r' ≠ 0) :
    Function.Injective fun z : ZMod p × ZMod p => (z.1 * r ^ 2, z.2 * r' ^ 2) := by
  rintro ⟨a, b⟩ ⟨c, d⟩ h
  simp only [Prod.mk.injEq] at h
  rw [mul_left_inj' (pow_ne_zero 2 hr), mul_left_inj' (pow_ne_zero 2 hr')] at h
  rw [h.1, h.2]

theorem stp_stp {r r' : ZMod p} (hr : r ≠ 0) (hr' : r' ≠ 0) (I : Finset (ZMod p)) (Y : Finset (ZMod p × ZMod p)) :
    stp r r' I (stp r r' I (Y.image (coord r r'))) =
      ((addCol I (addRow I Y)).image (coord r r')).image fun z => (z.1 * r ^ 2, z.2 * r' ^ 2) := by
  ext ⟨a, b⟩
  simp only [stp, addCol, addRow, mem_image, mem_product, Prod.exists, Prod.mk.injEq, coord]
  constructor
  · rintro ⟨x, y, d, ⟨⟨x', y', c, ⟨⟨t, u, h, rfl, rfl⟩, hc⟩, rfl, rfl⟩, hd⟩, rfl, rfl⟩
    refine ⟨_, _, ⟨_, _, ⟨_, _, d, ⟨⟨t, u, c, ⟨h, hc⟩, rfl, rfl⟩, hd⟩, rfl, rfl⟩, rfl, rfl⟩, ?_, ?_⟩
    · field_simp; ring
    · field_simp; ring
  · rintro ⟨x, y, ⟨x1, y1, ⟨x2, y2, d, ⟨⟨t, u, c, ⟨h, hc⟩, rfl, rfl⟩, hd⟩, rfl, rfl⟩, rfl, rfl⟩, rfl, rfl⟩
    refine ⟨_, _, d, ⟨⟨_, _, c, ⟨⟨t, u, h, rfl, rfl⟩, hc⟩, rfl, rfl⟩, hd⟩, ?_, ?_⟩
    · field_simp; ring
    · field_simp; ring

variable {r r' : ZMod p} {I : Finset (ZMod p)} {M : ℕ}

theorem card_stp_stp (hr : r ≠ 0) (hr' : r' ≠ 0) (hne : r ≠ r') (Y : Finset (ZMod p × ZMod p)) :
    (stp r r' I (stp r r' I (Y.image (coord r r')))).card = (addCol I (addRow I Y)).card := by
  rw [stp_stp hr hr', card_image_of_injective _ (scale_inj hr hr'), card_image_of_injective _ (coord_inj hr hr' hne)]

theorem exists_coord (hr : r ≠ 0) (hr' : r' ≠ 0) (hne : r ≠ r') (X : Finset (ZMod p × ZMod p)) :
    ∃ Y : Finset (ZMod p × ZMod p), X = Y.image (coord r r') ∧ Y.card = X.card := by
  have hb : Function.Bijective (coord r r') := Finite.injective_iff_bijective.mp (coord_inj hr hr' hne)
  let e := Equiv.ofBijective _ hb
  refine ⟨X.image e.symm, ?_, card_image_of_injective _ e.symm.injective⟩
  rw [image_image]
  have : (coord r r') ∘ e.symm = id := funext fun z => e.apply_symm_apply z
  rw [this, image_id]

theorem card_addRow_ge (hI : I.Nonempty) (Y : Finset (ZMod p × ZMod p)) : Y.card ≤ (addRow I Y).card := by
  obtain ⟨i, hi⟩ := hI
  apply card_le_card_of_injOn fun z => (z.1 + i, z.2)
  · intro z hz
    exact mem_image.mpr ⟨(z, i), mem_product.mpr ⟨hz, hi⟩, rfl⟩
  · rintro ⟨a, b⟩ _ ⟨c, d⟩ _ h
    simp only [Prod.mk.injEq, add_left_inj] at h
    rw [h.1, h.2]

theorem card_addCol_ge (hI : I.Nonempty) (Y : Finset (ZMod p × ZMod p)) : Y.card ≤ (addCol I Y).card := by
  rw [addCol_swap, card_swap, ← card_swap Y]
  exact card_addRow_ge hI _

/-- A double step adds 3/32 of all pairs until more than half of them are reached. -/
theorem double (hr : r ≠ 0) (hr' : r' ≠ 0) (hne : r ≠ r') (hI : I.card = M + 1) (hM : M ≤ p) (hM4 : p ≤ 4 * M)
    (X : Finset (ZMod p × ZMod p)) (hX : p ^ 2 ≤ 16 * X.card) :
    p ^ 2 < 2 * (stp r r' I (stp r r' I X)).card ∨ 32 * X.card + 3 * p ^ 2 ≤ 32 * (stp r r' I (stp r r' I X)).card := by
  have hIn : I.Nonempty := card_pos.mp (by omega)
  obtain ⟨Y, rfl, hY⟩ := exists_coord hr hr' hne X
  rw [card_stp_stp hr hr' hne, ← hY]
  rw [← hY] at hX
  set Y' := addRow I Y with hY'
  have hge := card_addRow_ge hIn Y
  rw [← hY'] at hge
  by_cases hhalf : p ^ 2 < 2 * Y'.card
  · left
    have := card_addCol_ge hIn Y'
    omega
  · right
    have h1 := card_addRow I M hI hM Y
    have h2 := card_addCol I M hI hM Y'
    rw [← hY'] at h1
    have hL : Y'.card ≤ (Y.image Prod.snd).card * (Y'.image Prod.fst).card := by
      rw [mul_comm, ← card_product]
      apply card_le_card
      intro z hz
      refine mem_product.mpr ⟨mem_image_of_mem _ hz, ?_⟩
      rw [← addRow_snd I hIn Y]
      exact mem_image_of_mem _ hz
    have hp0 : (0 : ℤ) < p := by exact_mod_cast hp.out.pos
    have := step_arith (p : ℤ) M Y.card Y'.card (addCol I Y').card (Y.image Prod.snd).card (Y'.image Prod.fst).card
      (by exact_mod_cast hX) (by exact_mod_cast hge) (by exact_mod_cast hM4) hp0 (by exact_mod_cast h1) (by exact_mod_cast h2)
      (by exact_mod_cast hL) (by positivity) (by positivity) (by exact_mod_cast not_lt.mp hhalf)
    exact_mod_cast this

theorem stp_mono_card (hr : r ≠ 0) (hr' : r' ≠ 0) (hI : I.Nonempty) (X : Finset (ZMod p × ZMod p)) :
    X.card ≤ (stp r r' I X).card := by
  obtain ⟨i, hi⟩ := hI
  apply card_le_card_of_injOn fun z => ((z.1 + i) * r, (z.2 + i) * r')
  · intro z hz
    exact mem_image.mpr ⟨(z, i), mem_product.mpr ⟨hz, hi⟩, rfl⟩
  · rintro ⟨a, b⟩ _ ⟨c, d⟩ _ h
    simp only [Prod.mk.injEq, mul_left_inj' hr, mul_left_inj' hr', add_left_inj] at h
    rw [h.1, h.2]

/-- The start: from one pair, two steps reach a sixteenth of all pairs. -/
theorem two_steps (hr : r ≠ 0) (hr' : r' ≠ 0) (hne : r ≠ r') (s : ZMod p × ZMod p) :
    (stp r r' I (stp r r' I {s})).card = I.card * I.card := by
  obtain ⟨Y, h, hY⟩ := exists_coord hr hr' hne {s}
  rw [h, card_stp_stp hr hr' hne]
  rw [card_singleton, card_eq_one] at hY
  obtain ⟨y, rfl⟩ := hY
  have : addCol I (addRow I {y}) = (I ×ˢ I).image fun z => (y.1 + z.1, y.2 + z.2) := by
    ext ⟨a, b⟩
    simp only [addCol, addRow, mem_image, mem_product, Prod.exists, Prod.mk.injEq, mem_singleton]
    constructor
    · rintro ⟨x, z, d, ⟨⟨x', z', c, ⟨rfl, hc⟩, rfl, rfl⟩, hd⟩, rfl, rfl⟩
      exact ⟨c, d, ⟨hc, hd⟩, rfl, rfl⟩
    · rintro ⟨c, d, ⟨hc, hd⟩, rfl, rfl⟩
      exact ⟨_, _, d, ⟨⟨y.1, y.2, c, ⟨rfl, hc⟩, rfl, rfl⟩, hd⟩, rfl, rfl⟩
  rw [this, card_image_of_injective, card_product]
  rintro ⟨a, b⟩ ⟨c, d⟩ h
  simp only [Prod.mk.injEq, add_right_inj] at h
  rw [h.1, h.2]

/-- Twelve steps from one pair reach more than half of all pairs. -/
theorem twelve (hr : r ≠ 0) (hr' : r' ≠ 0) (hne : r ≠ r') (hI : I.card = M + 1) (hM : M ≤ p) (hM4 : p ≤ 4 * M)
    (s : ZMod p × ZMod p) : p ^ 2 < 2 * ((stp r r' I)^[12] {s}).card := by
  have hIn : I.Nonempty := card_pos.mp (by omega)
  have hp0 : 0 < p := hp.out.pos
  have aux : ∀ k, p ^ 2 < 2 * ((stp r r' I)^[2 * k + 2] {s}).card ∨
      (2 + 3 * k) * p ^ 2 ≤ 32 * ((stp r r' I)^[2 * k + 2] {s}).card := by
    intro k
    induction k with
    | zero =>
      right
      have e : (stp r r' I)^[2 * 0 + 2] {s} = stp r r' I (stp r r' I {s}) := rfl
      rw [e, two_steps hr hr' hne, hI]
      nlinarith
    | succ k ih =>
      have e : (stp r r' I)^[2 * (k + 1) + 2] {s} = stp r r' I (stp r r' I ((stp r r' I)^[2 * k + 2] {s})) := by
        rw [show 2 * (k + 1) + 2 = (2 * k + 2) + 1 + 1 by ring, Function.iterate_succ_apply', Function.iterate_succ_apply']
      rw [e]
      set X := (stp r r' I)^[2 * k + 2] {s}
      rcases ih with ih | ih
      · left
        have h1 := stp_mono_card hr hr' hIn X
        have h2 := stp_mono_card hr hr' hIn (stp r r' I X)
        omega
      · rcases double hr hr' hne hI hM hM4 X (by nlinarith) with h | h
        · exact .inl h
        · right; nlinarith
  rcases aux 5 with h | h
  · exact h
  · have : 0 < p ^ 2 := by positivity
    change (2 + 3 * 5) * p ^ 2 ≤ 32 * ((stp r r' I)^[12] {s}).card at h
    omega

/-- The result of the two evaluations on a list. -/
def horner (r : ZMod p) (a : ZMod p) (xs : List (ZMod p)) : ZMod p := xs.foldl (fun a x => (a + x) * r) a

theorem horner_start (r a : ZMod p) (xs : List (ZMod p)) : horner r a xs = a * r ^ xs.length + horner r 0 xs := by
  unfold horner
  induction xs generalizing a with
  | nil => simp
  | cons x xs ih =>
    rw [List.foldl_cons, List.foldl_cons, ih, ih ((0 + x) * r), List.length_cons]
    ring

theorem mem_steps (n : ℕ) (s z : ZMod p × ZMod p) (h : z ∈ (stp r r' I)^[n] {s}) :
    ∃ xs : List (ZMod p), xs.length = n ∧ (∀ x ∈ xs, x ∈ I) ∧ horner r s.1 xs = z.1 ∧ horner r' s.2 xs = z.2 := by
  induction n generalizing z with
  | zero =>
    rw [Function.iterate_zero, id, mem_singleton] at h
    subst h
    exact ⟨[], rfl, by simp, rfl, rfl⟩
  | succ n ih =>
    rw [Function.iterate_succ_apply'] at h
    obtain ⟨⟨w, i⟩, hw, rfl⟩ := mem_image.mp h
    obtain ⟨hw, hi⟩ := mem_product.mp hw
    obtain ⟨xs, h1, h2, h3, h4⟩ := ih w hw
    refine ⟨xs ++ [i], by simp [h1], ?_, ?_, ?_⟩
    · intro x hx
      rcases List.mem_append.mp hx with hx | hx
      · exact h2 x hx
      · rw [List.mem_singleton.mp hx]; exact hi
    · unfold horner at h3 ⊢
      rw [List.foldl_append, h3]; rfl
    · unfold horner at h4 ⊢
      rw [List.foldl_append, h4]; rfl

/-- Twenty-four steps lead from any pair to any pair. -/
theorem reach (hr : r ≠ 0) (hr' : r' ≠ 0) (hne : r ≠ r') (hI : I.card = M + 1) (hM : M ≤ p) (hM4 : p ≤ 4 * M)
    (s g : ZMod p × ZMod p) : ∃ xs : List (ZMod p), xs.length = 24 ∧ (∀ x ∈ xs, x ∈ I) ∧ horner r s.1 xs = g.1 ∧
      horner r' s.2 xs = g.2 := by
  set A := (stp r r' I)^[12] {s} with hA
  set B := (stp r r' I)^[12] {((0, 0) : ZMod p × ZMod p)} with hB
  have h1 : p ^ 2 < 2 * A.card := twelve hr hr' hne hI hM hM4 s
  have h2 : p ^ 2 < 2 * B.card := twelve hr hr' hne hI hM hM4 (0, 0)
  set C := B.image fun z => ((g.1 - z.1) / r ^ 12, (g.2 - z.2) / r' ^ 12) with hC
  have hCc : C.card = B.card := by
    apply card_image_of_injective
    rintro ⟨a, b⟩ ⟨c, d⟩ h
    simp only [Prod.mk.injEq] at h
    rw [div_left_inj' (pow_ne_zero _ hr), div_left_inj' (pow_ne_zero _ hr'), sub_right_inj, sub_right_inj] at h
    rw [h.1, h.2]
  have hint : (A ∩ C).Nonempty := by
    rw [← card_pos]
    have hu := card_union_add_card_inter A C
    have hle := card_le_univ (A ∪ C)
    rw [Fintype.card_prod, ZMod.card] at hle
    have : p ^ 2 = p * p := sq p
    omega
  obtain ⟨z, hz⟩ := hint
  obtain ⟨hzA, hzC⟩ := mem_inter.mp hz
  obtain ⟨w, hw, rfl⟩ := mem_image.mp hzC
  obtain ⟨xs, x1, x2, x3, x4⟩ := mem_steps 12 s _ hzA
  obtain ⟨ys, y1, y2, y3, y4⟩ := mem_steps 12 (0, 0) w hw
  refine ⟨xs ++ ys, by simp [x1, y1], ?_, ?_, ?_⟩
  · intro x hx
    rcases List.mem_append.mp hx with hx | hx
    · exact x2 x hx
    · exact y2 x hx
  · have : horner r s.1 (xs ++ ys) = horner r (horner r s.1 xs) ys := List.foldl_append
    rw [this, x3, horner_start, y1, y3]
    field_simp
    ring
  · have : horner r' s.2 (xs ++ ys) = horner r' (horner r' s.2 xs) ys := List.foldl_append
    rw [this, x4, horner_start, y1, y4]
    field_simp
    ring

end CryptoPure.Proofs.Growth
