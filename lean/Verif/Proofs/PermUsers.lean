import Verif.Proofs.KeySearch

/-! # Many keyed functions made from one public random permutation

As in Verif/Proofs/PermIdeal.lean, but the key only has to avoid given points with high probability, and to make the points different. -/

namespace CryptoPure.Proofs.PermIdeal
open Game Switch HmacIdeal PermGame

variable {K I Z C : Type}
variable (pt : K → I → C) (mask : C → C ≃ Z)

theorem meet_le' [Finite K] {ε₁ ε₂ : ℚ} (h0 : 0 ≤ ε₁) (h0' : 0 ≤ ε₂) (hk : ∀ x, prob (fun k : K => ∃ i, x = pt k i) ≤ ε₁)
    (hm : ∀ y i z, prob (fun k : K => mask (pt k i) y = z) ≤ ε₂)
    (c : List (C × C)) (d : List I) (F : I → Z) (p s : Nat) (hp : c.length ≤ p) (hs : d.length ≤ s) :
    prob (fun k : K => ¬ ∀ q ∈ c, ∀ i ∈ d, q.1 ≠ pt k i ∧ q.2 ≠ inner pt mask k F i) ≤ p * ε₁ + p * s * ε₂ := by
  have h1 := ExtractIdeal.prob_exists_list (fun (q : C × C) (k : K) => ∃ i, q.1 = pt k i) ε₁ c fun q _ => hk q.1
  have h2 := ExtractIdeal.prob_exists_list (fun (q : (C × C) × I) (k : K) => q.1.2 = inner pt mask k F q.2) ε₂ (c ×ˢ d) fun q _ => by
    refine le_trans (prob_mono fun k h => ?_) (hm q.1.2 q.2 (F q.2))
    unfold inner at h
    rwa [Equiv.eq_symm_apply] at h
  refine le_trans (prob_mono fun k h => ?_) (le_trans (prob_or _ _) (le_trans (add_le_add h1 h2) ?_))
  · push Not at h
    obtain ⟨q, hq, i, hi, h⟩ := h
    by_cases e : q.1 = pt k i
    · exact Or.inl ⟨q, hq, i, e⟩
    · exact Or.inr ⟨(q, i), List.mem_product.mpr ⟨hq, hi⟩, h e⟩
  · rw [List.length_product]
    have a1 : (c.length : ℚ) ≤ p := by exact_mod_cast hp
    have a2 : ((c.length * d.length : Nat) : ℚ) ≤ p * s := by exact_mod_cast Nat.mul_le_mul hp hs
    exact add_le_add (mul_le_mul_of_nonneg_right a1 h0) (mul_le_mul_of_nonneg_right a2 h0')

theorem accident' [Finite K] [Finite I] [Finite Z] [Finite C] [Nonempty K] [Nonempty C] [Nonempty Z] {ε₁ ε₂ : ℚ} (h0 : 0 ≤ ε₁) (h0' : 0 ≤ ε₂)
    (hk : ∀ x, prob (fun k : K => ∃ i, x = pt k i) ≤ ε₁)
    (hm : ∀ y i z, prob (fun k : K => mask (pt k i) y = z) ≤ ε₂) (t : Tester I Z C) (p s : Nat) (h : t.Within p s) :
    prob (fun q : K × (Equiv.Perm C × (I → Z)) => ¬ Good pt mask q.1 (t.pairs q.2.1 q.2.2) (t.blks q.2.1 q.2.2) q.2.2) ≤
      p * ε₁ + p * s * ε₂ + s * s / Nat.card C := by
  have : Nonempty (Equiv.Perm C) := ⟨1⟩
  have h1 : prob (fun q : K × (Equiv.Perm C × (I → Z)) => ¬ ∀ r ∈ t.pairs q.2.1 q.2.2, ∀ i ∈ t.blks q.2.1 q.2.2,
      r.1 ≠ pt q.1 i ∧ r.2 ≠ inner pt mask q.1 q.2.2 i) ≤ p * ε₁ + p * s * ε₂ := by
    refine prob_prod_le _ _ fun ω => ?_
    exact meet_le' pt mask h0 h0' hk hm (t.pairs ω.1 ω.2) (t.blks ω.1 ω.2) ω.2 p s (h.lengths ω.1 ω.2).1 (h.lengths ω.1 ω.2).2
  have h2 : prob (fun q : K × (Equiv.Perm C × (I → Z)) => ¬ ∀ i ∈ t.blks q.2.1 q.2.2, ∀ j ∈ t.blks q.2.1 q.2.2,
      inner pt mask q.1 q.2.2 i = inner pt mask q.1 q.2.2 j → i = j) ≤ s * s / Nat.card C := by
    rw [← prob_equiv ((Equiv.prodComm (I → Z) (K × Equiv.Perm C)).trans (Equiv.prodAssoc _ _ _))]
    exact prob_prod_le _ _ fun kP => clash_le pt mask kP.1 kP.2 t p s h
  refine le_trans (prob_mono fun q hq => ?_) (le_trans (prob_or _ _) (add_le_add h1 h2))
  unfold Good at hq
  exact not_and_or.mp hq

theorem one_side' [Finite K] [Finite I] [Finite Z] [Finite C] [Nonempty K] [Nonempty C] [Nonempty Z] {ε₁ ε₂ δ : ℚ} (h0 : 0 ≤ ε₁) (h0' : 0 ≤ ε₂)
    (hk : ∀ x, prob (fun k : K => ∃ i, x = pt k i) ≤ ε₁)
    (hm : ∀ y i z, prob (fun k : K => mask (pt k i) y = z) ≤ ε₂) (hi : prob (fun k : K => ¬ Function.Injective (pt k)) ≤ δ)
    (t : Tester I Z C) (p s : Nat) (h : t.Within p s) (v : Bool) :
    prob (fun ω : Equiv.Perm C × (I → Z) => t.run ω.1 ω.2 = v) ≤
      prob (fun q : K × Equiv.Perm C => t.run q.2 (real pt mask q.1 q.2) = v) + (p * ε₁ + p * s * ε₂ + s * s / Nat.card C + δ) := by
  have hlow : prob (fun q : K × (Equiv.Perm C × (I → Z)) => Function.Injective (pt q.1) ∧ t.run q.2.1 q.2.2 = v ∧
      Good pt mask q.1 (t.pairs q.2.1 q.2.2) (t.blks q.2.1 q.2.2) q.2.2) ≤
      prob (fun q : K × Equiv.Perm C => t.run q.2 (real pt mask q.1 q.2) = v) := by
    refine prob_fst_le _ _ fun k => ?_
    by_cases hik : Function.Injective (pt k)
    · have e1 : Om ([] : List (C × C)) ([] : List (I × Z)) = Set.univ := by ext; simp [Om, SP]
      have e2 : SP (([] : List (C × C)) ++ D pt mask k []) = Set.univ := by ext; simp [SP, D]
      have := lower pt mask k hik v t [] [] (by rw [e1]; exact ⟨(1, fun _ => Classical.arbitrary Z), trivial⟩)
        (by rw [e2]; exact ⟨1, trivial⟩)
      rw [e1, e2, cprob_univ, cprob_univ] at this
      simpa [hik] using this
    · have : prob (fun c : Equiv.Perm C × (I → Z) => Function.Injective (pt k) ∧ t.run c.1 c.2 = v ∧
          Good pt mask k (t.pairs c.1 c.2) (t.blks c.1 c.2) c.2) = 0 := by
        unfold prob
        simp [hik]
      exact this.le.trans (by unfold prob; positivity)
  have hacc := accident' pt mask h0 h0' hk hm t p s h
  have : Nonempty (Equiv.Perm C) := ⟨1⟩
  have hinj : prob (fun q : K × (Equiv.Perm C × (I → Z)) => ¬ Function.Injective (pt q.1)) ≤ δ := by
    rw [prob_fst (fun k : K => ¬ Function.Injective (pt k))]
    exact hi
  rw [← prob_snd (α := K) (fun ω : Equiv.Perm C × (I → Z) => t.run ω.1 ω.2 = v)]
  refine le_trans (prob_mono (Q := fun q : K × (Equiv.Perm C × (I → Z)) => (Function.Injective (pt q.1) ∧ t.run q.2.1 q.2.2 = v ∧
    Good pt mask q.1 (t.pairs q.2.1 q.2.2) (t.blks q.2.1 q.2.2) q.2.2) ∨ (¬ Good pt mask q.1 (t.pairs q.2.1 q.2.2) (t.blks q.2.1 q.2.2) q.2.2 ∨
      ¬ Function.Injective (pt q.1))) fun q hq => ?_) (le_trans (prob_or _ _) (add_le_add hlow ((prob_or _ _).trans (add_le_add hacc hinj))))
  by_cases hg : Good pt mask q.1 (t.pairs q.2.1 q.2.2) (t.blks q.2.1 q.2.2) q.2.2
  · by_cases hi : Function.Injective (pt q.1)
    · exact Or.inl ⟨hi, hq, hg⟩
    · exact Or.inr (Or.inr hi)
  · exact Or.inr (Or.inl hg)

theorem advantage_le' [Finite K] [Finite I] [Finite Z] [Finite C] [Nonempty K] [Nonempty C] [Nonempty Z] {ε₁ ε₂ δ : ℚ} (h0 : 0 ≤ ε₁) (h0' : 0 ≤ ε₂)
    (hk : ∀ x, prob (fun k : K => ∃ i, x = pt k i) ≤ ε₁)
    (hm : ∀ y i z, prob (fun k : K => mask (pt k i) y = z) ≤ ε₂) (hi : prob (fun k : K => ¬ Function.Injective (pt k)) ≤ δ)
    (t : Tester I Z C) (p s : Nat) (h : t.Within p s) :
    |prob (fun q : K × Equiv.Perm C => t.run q.2 (real pt mask q.1 q.2) = true) - prob (fun ω : Equiv.Perm C × (I → Z) => t.run ω.1 ω.2 = true)| ≤
      p * ε₁ + p * s * ε₂ + s * s / Nat.card C + δ := by
  have h1 := one_side' pt mask h0 h0' hk hm hi t p s h true
  have h2 := one_side' pt mask h0 h0' hk hm hi t p s h false
  have : Nonempty (Equiv.Perm C) := ⟨1⟩
  have e1 := prob_not (fun q : K × Equiv.Perm C => t.run q.2 (real pt mask q.1 q.2) = true)
  have e2 := prob_not (fun ω : Equiv.Perm C × (I → Z) => t.run ω.1 ω.2 = true)
  simp only [Bool.not_eq_true] at e1 e2
  rw [abs_le]
  constructor <;> linarith

/-- Users whose keys are drawn independently. -/
theorem users_le {J : Type} {u : Nat} (pt : K → J → C) [Finite K] [Finite J] [Finite Z] [Finite C] [Nonempty K] [Nonempty C] [Nonempty Z]
    (hk : ∀ k i k' i', pt k i = pt k' i' → k = k' ∧ i = i') (hm : ∀ x x' y, mask x y = mask x' y → x = x') (t : Tester (Fin u × J) Z C) (p s : Nat)
    (h : t.Within p s) :
    |prob (fun q : (Fin u → K) × Equiv.Perm C => t.run q.2 (fun x => mask (pt (q.1 x.1) x.2) (q.2 (pt (q.1 x.1) x.2))) = true) -
      prob (fun ω : Equiv.Perm C × (Fin u × J → Z) => t.run ω.1 ω.2 = true)| ≤
      (u * p + p * s + u * (u - 1) / 2) / Nat.card K + s * s / Nat.card C := by
  have := advantage_le' (K := Fin u → K) (fun keys (x : Fin u × J) => pt (keys x.1) x.2) mask (ε₁ := u / Nat.card K) (ε₂ := 1 / Nat.card K)
    (δ := u * (u - 1) / 2 / Nat.card K) (by positivity) (by positivity) ?_ ?_ ?_ t p s h
  · refine le_trans this (le_of_eq ?_)
    ring
  · intro x
    refine le_trans (prob_mono (Q := fun keys : Fin u → K => ∃ i : Fin u, ∃ j, x = pt (keys i) j) fun keys ⟨i, h⟩ => ⟨i.1, i.2, h⟩) ?_
    refine (prob_exists _).trans ?_
    refine (Finset.sum_le_sum fun i _ => KeySearch.prob_coordinate (K := K) i (fun keys => ∃ j, x = pt (keys i) j) fun keys a b ha hb => ?_).trans (le_of_eq ?_)
    · rw [Function.update_self] at ha hb
      obtain ⟨j, ha⟩ := ha
      obtain ⟨j', hb⟩ := hb
      exact (hk _ _ _ _ (ha.symm.trans hb)).1
    · rw [Finset.sum_const, Finset.card_univ, Fintype.card_fin, nsmul_eq_mul, mul_one_div]
  · intro y i z
    refine KeySearch.prob_coordinate (K := K) i.1 _ fun keys a b ha hb => ?_
    rw [Function.update_self] at ha hb
    exact (hk _ _ _ _ (hm _ _ _ (ha.trans hb.symm))).1
  · refine le_trans (prob_mono (P := fun keys : Fin u → K => ¬ Function.Injective fun x : Fin u × J => pt (keys x.1) x.2)
      (Q := fun keys : Fin u → K => ¬ Function.Injective keys) fun keys hn hi => hn ?_) (KeySearch.prob_equal (K := K) (u := u))
    rintro ⟨i, x⟩ ⟨j, y⟩ e
    obtain ⟨e1, e2⟩ := hk _ _ _ _ e
    exact Prod.ext (hi e1) e2

end CryptoPure.Proofs.PermIdeal
