import Verif.Spec.Prog
import Mathlib.Algebra.Order.Chebyshev
import Mathlib.Algebra.BigOperators.Fin
import Mathlib.Algebra.Order.BigOperators.Group.Finset
import Mathlib.Algebra.BigOperators.Ring.Finset
import Mathlib.Algebra.Order.Field.Basic
import Mathlib.Data.Fintype.Card
import Mathlib.Tactic.Linarith
import Mathlib.Tactic.Positivity
import Mathlib.Tactic.FieldSimp
import Mathlib.Tactic.Ring

/-! # Facts about expectations -/

namespace CryptoPure.Prog
variable {α β : Type}

theorem ex_bind (p : Prog α) (f : α → Prog β) (g : β → ℚ) : (p.bind f).ex g = p.ex fun a => (f a).ex g := by
  induction p with
  | done a => rfl
  | pick n next ih => simp only [bind, ex, ih]

theorem ex_bind' (p : Prog α) (f : α → Prog β) (g : β → ℚ) : (p >>= f).ex g = p.ex fun a => (f a).ex g := ex_bind p f g

theorem ex_done (a : α) (g : α → ℚ) : (Prog.done a).ex g = g a := rfl
theorem ex_pure (a : α) (g : α → ℚ) : (pure a : Prog α).ex g = g a := rfl

theorem ex_mono_all {p : Prog α} {Q : α → Prop} {g h : α → ℚ} (hp : p.All Q) (hgh : ∀ a, Q a → g a ≤ h a) : p.ex g ≤ p.ex h := by
  induction p with
  | done a => exact hgh a hp
  | pick n next ih =>
    refine div_le_div_of_nonneg_right ?_ (by positivity)
    exact Finset.sum_le_sum fun i _ => ih i (hp i)

theorem All.triv (p : Prog α) : p.All fun _ => True := by
  induction p with
  | done a => trivial
  | pick n next ih => exact ih

theorem All.imp {p : Prog α} {Q R : α → Prop} (hp : p.All Q) (h : ∀ a, Q a → R a) : p.All R := by
  induction p with
  | done a => exact h a hp
  | pick n next ih => exact fun i => ih i (hp i)

theorem All.and {p : Prog α} {Q R : α → Prop} (hp : p.All Q) (hr : p.All R) : p.All fun a => Q a ∧ R a := by
  induction p with
  | done a => exact ⟨hp, hr⟩
  | pick n next ih => exact fun i => ih i (hp i) (hr i)

theorem All.bind {p : Prog α} {f : α → Prog β} {Q : α → Prop} {R : β → Prop} (hp : p.All Q) (h : ∀ a, Q a → (f a).All R) :
    (p.bind f).All R := by
  induction p with
  | done a => exact h a hp
  | pick n next ih => exact fun i => ih i (hp i)

theorem ex_mono {p : Prog α} {g h : α → ℚ} (hgh : ∀ a, g a ≤ h a) : p.ex g ≤ p.ex h := ex_mono_all (All.triv p) fun a _ => hgh a

theorem ex_congr_all {p : Prog α} {Q : α → Prop} {g h : α → ℚ} (hp : p.All Q) (hgh : ∀ a, Q a → g a = h a) : p.ex g = p.ex h :=
  le_antisymm (ex_mono_all hp fun a ha => (hgh a ha).le) (ex_mono_all hp fun a ha => (hgh a ha).ge)

theorem ex_add (p : Prog α) (g h : α → ℚ) : (p.ex fun a => g a + h a) = p.ex g + p.ex h := by
  induction p with
  | done a => rfl
  | pick n next ih => simp only [ex, ih, Finset.sum_add_distrib, add_div]

theorem ex_mul (p : Prog α) (c : ℚ) (g : α → ℚ) : (p.ex fun a => c * g a) = c * p.ex g := by
  induction p with
  | done a => rfl
  | pick n next ih => simp only [ex, ih, ← Finset.mul_sum, mul_div_assoc]

theorem ex_mul_right (p : Prog α) (c : ℚ) (g : α → ℚ) : (p.ex fun a => g a * c) = p.ex g * c := by
  rw [mul_comm, ← ex_mul]
  congr 1; funext a; ring

theorem ex_zero (p : Prog α) : (p.ex fun _ => 0) = 0 := by
  induction p with
  | done a => rfl
  | pick n next ih => simp [ex, ih]

theorem ex_nonneg {p : Prog α} {g : α → ℚ} (h : ∀ a, 0 ≤ g a) : 0 ≤ p.ex g := by
  rw [← ex_zero p]; exact ex_mono h

theorem ex_const_le (p : Prog α) {c : ℚ} (hc : 0 ≤ c) : (p.ex fun _ => c) ≤ c := by
  induction p with
  | done a => exact le_refl _
  | pick n next ih =>
    show (∑ i, _) / (n : ℚ) ≤ c
    rcases Nat.eq_zero_or_pos n with h | h
    · subst h; simpa using hc
    rw [div_le_iff₀ (by exact_mod_cast h)]
    calc _ ≤ ∑ _i : Fin n, c := Finset.sum_le_sum fun i _ => ih i
      _ = c * n := by rw [Finset.sum_const, Finset.card_univ, Fintype.card_fin, nsmul_eq_mul, mul_comm]

theorem ex_le_one {p : Prog α} {g : α → ℚ} (h : ∀ a, g a ≤ 1) : p.ex g ≤ 1 :=
  (ex_mono h).trans (ex_const_le p zero_le_one)

/-- Jensen's inequality. -/
theorem ex_sq_le (p : Prog α) (g : α → ℚ) : (p.ex g) ^ 2 ≤ p.ex fun a => g a ^ 2 := by
  induction p with
  | done a => exact le_refl _
  | pick n next ih =>
    show ((∑ i, (next i).ex g) / (n : ℚ)) ^ 2 ≤ (∑ i, _) / (n : ℚ)
    rcases Nat.eq_zero_or_pos n with h | h
    · subst h; simp
    have hn : (0 : ℚ) < n := by exact_mod_cast h
    have h1 := sq_sum_le_card_mul_sum_sq (s := Finset.univ) (f := fun i => (next i).ex g)
    rw [Finset.card_univ, Fintype.card_fin] at h1
    have h2 : ∑ i, ((next i).ex g) ^ 2 ≤ ∑ i, (next i).ex (fun a => g a ^ 2) := Finset.sum_le_sum fun i _ => ih i
    rw [div_pow, div_le_div_iff₀ (by positivity) hn]
    have : (∑ i, (next i).ex g) ^ 2 ≤ n * ∑ i, (next i).ex (fun a => g a ^ 2) := h1.trans (by nlinarith)
    nlinarith

theorem ex_comm {γ : Type} (p : Prog α) (q : Prog γ) (g : α → γ → ℚ) : (p.ex fun a => q.ex (g a)) = q.ex fun c => p.ex fun a => g a c := by
  induction p with
  | done a => rfl
  | pick n next ih =>
    simp only [ex, ih]
    have : ∀ k : Nat, ∀ h : Fin k → γ → ℚ, ∑ i, q.ex (h i) = q.ex fun c => ∑ i, h i c := by
      intro k h
      induction k with
      | zero => simp [ex_zero]
      | succ k ih2 => simp only [Fin.sum_univ_succ, ex_add, ih2]
    rw [this]
    simp only [div_eq_mul_inv, ex_mul_right]

theorem pr_nonneg (p : Prog α) (E : α → Prop) : 0 ≤ p.pr E := ex_nonneg fun a => by split <;> simp
theorem pr_le_one (p : Prog α) (E : α → Prop) : p.pr E ≤ 1 := ex_le_one fun a => by split <;> simp

end CryptoPure.Prog
