import Verif.Spec.Game
import Mathlib.Data.Set.Card
import Mathlib.Data.Set.Prod
import Mathlib.Data.Finite.Prod
import Mathlib.Data.Finite.Sigma
import Mathlib.Algebra.BigOperators.Field
import Mathlib.Tactic.Linarith
import Mathlib.Tactic.Positivity
import Mathlib.Tactic.Ring

/-! # Facts about the probabilities of Verif/Spec/Game.lean -/

namespace CryptoPure.Game

variable {α β : Type}

theorem prob_equiv (e : α ≃ β) (P : β → Prop) : prob (fun a => P (e a)) = prob P := by
  unfold prob
  rw [Nat.card_congr e]
  congr 2
  refine Set.ncard_congr (fun a _ => e a) (fun a h => h) (fun a b _ _ h => e.injective h) (fun b h => ⟨e.symm b, ?_, by simp⟩)
  simpa using h

theorem prob_mono [Finite α] {P Q : α → Prop} (h : ∀ a, P a → Q a) : prob P ≤ prob Q := by
  unfold prob
  refine div_le_div_of_nonneg_right ?_ (by positivity)
  exact_mod_cast Set.ncard_le_ncard h (Set.toFinite _)

theorem prob_or [Finite α] (P Q : α → Prop) : prob (fun a => P a ∨ Q a) ≤ prob P + prob Q := by
  unfold prob
  rw [← add_div]
  refine div_le_div_of_nonneg_right ?_ (by positivity)
  exact_mod_cast Set.ncard_union_le {a | P a} {a | Q a}

theorem prob_not [Finite α] [Nonempty α] (P : α → Prop) : prob (fun a => ¬ P a) = 1 - prob P := by
  unfold prob
  have h : {a | P a}.ncard + {a | ¬ P a}.ncard = Nat.card α := Set.ncard_add_ncard_compl {a | P a}
  have h0 : (Nat.card α : ℚ) ≠ 0 := by exact_mod_cast Nat.card_pos.ne'
  rw [eq_sub_iff_add_eq, ← add_div, div_eq_one_iff_eq h0]
  rw [← h]; push_cast; ring

theorem prob_prod [Finite α] [Fintype β] (P : α × β → Prop) : prob P = (∑ b, prob fun a => P (a, b)) / Fintype.card β := by
  classical
  have : Fintype α := Fintype.ofFinite α
  unfold prob
  have h : ({p | P p} : Set (α × β)).ncard = ∑ b, {a | P (a, b)}.ncard := by
    rw [Set.ncard_eq_toFinset_card', Finset.card_eq_sum_card_fiberwise (f := Prod.snd) (t := Finset.univ) (fun _ _ => Finset.mem_univ _)]
    refine Finset.sum_congr rfl fun b _ => ?_
    rw [Set.ncard_eq_toFinset_card']
    refine Finset.card_bij (fun p _ => p.1) ?_ ?_ ?_
    · rintro ⟨a, b'⟩ h
      simp only [Finset.mem_filter, Set.mem_toFinset, Set.mem_ofPred_eq] at h ⊢
      obtain ⟨h1, rfl⟩ := h
      exact h1
    · rintro ⟨a, b'⟩ h ⟨a', b''⟩ h' e
      simp only [Finset.mem_filter, Set.mem_toFinset, Set.mem_ofPred_eq] at h h' e
      rw [h.2, h'.2, e]
    · intro a h
      simp only [Set.mem_toFinset, Set.mem_ofPred_eq] at h
      exact ⟨(a, b), by simpa using h, rfl⟩
  rw [h, Nat.card_prod, ← Finset.sum_div, Nat.card_eq_fintype_card (α := β)]
  push_cast
  rw [div_div, mul_comm]

theorem prob_fst [Finite α] [Finite β] [Nonempty β] (P : α → Prop) : prob (fun p : α × β => P p.1) = prob P := by
  have : Fintype β := Fintype.ofFinite β
  rw [prob_prod]
  show (∑ _b : β, prob P) / _ = _
  rw [Finset.sum_const, Finset.card_univ, nsmul_eq_mul, mul_div_assoc, mul_div_cancel₀]
  exact_mod_cast Fintype.card_pos.ne'

theorem prob_snd [Finite α] [Finite β] [Nonempty α] (P : β → Prop) : prob (fun p : α × β => P p.2) = prob P := by
  rw [← prob_fst (β := α) P, ← prob_equiv (Equiv.prodComm α β)]
  rfl

theorem prob_prod_le [Finite α] [Finite β] [Nonempty β] (P : α × β → Prop) (c : ℚ) (h : ∀ b, (prob fun a => P (a, b)) ≤ c) : prob P ≤ c := by
  have : Fintype β := Fintype.ofFinite β
  rw [prob_prod, div_le_iff₀ (by exact_mod_cast Fintype.card_pos)]
  calc _ ≤ ∑ _b : β, c := Finset.sum_le_sum fun b _ => h b
    _ = _ := by rw [Finset.sum_const, Finset.card_univ, nsmul_eq_mul, mul_comm]

/-- If every point of `P` is sent to a point of `Q`, different ones to different ones, then `P` is not more likely than `Q`. -/
theorem prob_inj [Finite α] {P Q : α → Prop} (f : α → α) (h : ∀ a, P a → Q (f a)) (hi : ∀ a b, P a → P b → f a = f b → a = b) :
    prob P ≤ prob Q := by
  unfold prob
  refine div_le_div_of_nonneg_right ?_ (by positivity)
  exact_mod_cast Set.ncard_le_ncard_of_injOn f (fun a ha => h a ha) (fun a ha b hb => hi a b ha hb) (Set.toFinite _)

/-- The chance to hit one of the values in a list. -/
theorem prob_mem_list [Finite α] {γ : Type} (g : α → γ) (c : ℚ) (h : ∀ t, prob (fun a => g a = t) ≤ c) (l : List γ) :
    prob (fun a => g a ∈ l) ≤ l.length * c := by
  induction l with
  | nil => simp [prob]
  | cons x l ih =>
    have h1 : prob (fun a => g a ∈ x :: l) ≤ prob (fun a => g a = x) + prob (fun a => g a ∈ l) :=
      le_trans (prob_mono fun y hy => List.mem_cons.mp hy) (prob_or _ _)
    have := h x
    rw [List.length_cons]
    push_cast
    linarith

/-- Functions whose value at `x` is free: the values are equally distributed. -/
theorem count_point {D R : Type} [DecidableEq D] (P : Set (D → R)) (x : D) (V : Set R) (hP : ∀ F ∈ P, ∀ y, Function.update F x y ∈ P) :
    {F ∈ P | F x ∈ V}.ncard * Nat.card R = P.ncard * V.ncard := by
  classical
  rw [← Set.ncard_univ, ← Set.ncard_prod, ← Set.ncard_prod]
  refine Set.ncard_congr (fun p _ => (Function.update p.1 x p.2, p.1 x)) ?_ ?_ ?_
  · rintro ⟨F, r⟩ ⟨⟨h1, h2⟩, -⟩
    exact ⟨hP F h1 r, h2⟩
  · rintro ⟨F, r⟩ ⟨F', r'⟩ - - h
    simp only [Prod.mk.injEq] at h
    obtain ⟨h1, h2⟩ := h
    have hr : r = r' := by
      have := congrFun h1 x
      simpa using this
    subst hr
    refine Prod.ext (funext fun z => ?_) rfl
    by_cases hz : z = x
    · subst hz; exact h2
    · have := congrFun h1 z
      simpa [Function.update_of_ne hz] using this
  · rintro ⟨F, r⟩ ⟨h1, h2⟩
    refine ⟨(Function.update F x r, F x), ⟨⟨hP F h1 r, by simpa using h2⟩, Set.mem_univ _⟩, ?_⟩
    simp

end CryptoPure.Game
