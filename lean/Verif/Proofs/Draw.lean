import Verif.Spec.Draw
import Verif.Proofs.Prog
import Verif.Proofs.Prob

/-! # Facts about random elements of finite types -/

namespace CryptoPure.Prog
open Game

theorem draw_ex {α : Type} [Fintype α] (g : α → ℚ) : (draw α).ex g = (∑ a, g a) / Fintype.card α := by
  show (∑ i, g ((Finite.equivFin α).symm i)) / (Nat.card α : ℚ) = _
  rw [Equiv.sum_comp (Finite.equivFin α).symm g, Nat.card_eq_fintype_card]

theorem draw_prod {α β : Type} [Finite α] [Finite β] (g : α × β → ℚ) : (draw (α × β)).ex g = (draw α).ex fun a => (draw β).ex fun b => g (a, b) := by
  have : Fintype α := Fintype.ofFinite α
  have : Fintype β := Fintype.ofFinite β
  simp only [draw_ex]
  rw [Fintype.sum_prod_type, Fintype.card_prod, ← Finset.sum_div, div_div, Nat.cast_mul, mul_comm (Fintype.card β : ℚ)]

theorem prob_draw {α : Type} [Finite α] (P : α → Prop) : prob P = (draw α).pr P := by
  classical
  have : Fintype α := Fintype.ofFinite α
  unfold Prog.pr prob
  rw [draw_ex, Nat.card_eq_fintype_card, Set.ncard_eq_toFinset_card', Finset.sum_boole]
  congr 3
  ext a
  simp

end CryptoPure.Prog
