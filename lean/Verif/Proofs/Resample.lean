import Verif.Proofs.Prob
import Mathlib.Algebra.BigOperators.Fin

/-! # Independent keys, one of which is drawn again -/

namespace CryptoPure.Game

variable {u : Nat}

/-- Draw one of the keys separately. -/
theorem prob_update {α β : Type} [Finite α] [Nonempty α] [Finite β] (i : Fin u) (P : (Fin u → α) × β → Prop) :
    prob P = prob (fun x : (α × β) × (Fin u → α) => P (Function.update x.2 i x.1.1, x.1.2)) := by
  let e : (α × β) × (Fin u → α) ≃ ((Fin u → α) × β) × α :=
    { toFun := fun x => ((Function.update x.2 i x.1.1, x.1.2), x.2 i)
      invFun := fun x => ((x.1.1 i, x.1.2), Function.update x.1.1 i x.2)
      left_inv := fun x => by simp
      right_inv := fun x => by simp }
  rw [← prob_fst (β := α) P, ← prob_equiv e]
  rfl

/-- The chance of one of several events. -/
theorem prob_exists {α : Type} [Finite α] (P : Fin u → α → Prop) : prob (fun a => ∃ i, P i a) ≤ ∑ i, prob (P i) := by
  induction u with
  | zero => simp [prob]
  | succ n ih =>
    rw [Fin.sum_univ_succ]
    refine le_trans (prob_mono (Q := fun a => P 0 a ∨ ∃ i : Fin n, P i.succ a) fun a ⟨i, hi⟩ => ?_) ((prob_or _ _).trans
      (add_le_add le_rfl (ih fun i => P i.succ)))
    exact Fin.cases (motive := fun i => P i a → _) (fun h => .inl h) (fun i h => .inr ⟨i, h⟩) i hi

/-- Without anything else. -/
theorem prob_resample {α : Type} [Finite α] [Nonempty α] (i : Fin u) (P : (Fin u → α) → Prop) :
    prob P = prob (fun x : α × (Fin u → α) => P (Function.update x.2 i x.1)) := by
  let e : α × (Fin u → α) ≃ (Fin u → α) × α :=
    { toFun := fun x => (Function.update x.2 i x.1, x.2 i)
      invFun := fun x => (x.1 i, Function.update x.1 i x.2)
      left_inv := fun x => by simp
      right_inv := fun x => by simp }
  rw [← prob_fst (β := α) P, ← prob_equiv e]
  rfl

end CryptoPure.Game
