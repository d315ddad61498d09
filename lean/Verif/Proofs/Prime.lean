import Mathlib.NumberTheory.LucasPrimality
import Mathlib.Tactic.NormNum.Prime
import Mathlib.Tactic.Ring

/-! # Primality of 2^255 - 19 by a chain of Lucas certificates -/

namespace CryptoPure.Prime

theorem prime_dvd_prod {q : Nat} (hq : q.Prime) {l : List Nat} (hl : ∀ r ∈ l, r.Prime) (h : q ∣ l.prod) : q ∈ l := by
  induction l with
  | nil => exact absurd (Nat.dvd_one.mp h) hq.one_lt.ne'
  | cons a l ih =>
    rw [List.prod_cons] at h
    rcases (Nat.Prime.dvd_mul hq).mp h with h | h
    · rw [(Nat.prime_dvd_prime_iff_eq hq (hl a List.mem_cons_self)).mp h]
      exact List.mem_cons_self
    · exact List.mem_cons_of_mem _ (ih (fun r hr => hl r (List.mem_cons_of_mem _ hr)) h)

/-- Modular exponentiation by squaring, `fuel` bits of the exponent. -/
def powMod (n : Nat) : Nat → Nat → Nat → Nat → Nat
  | 0, _, _, acc => acc % n
  | fuel + 1, b, e, acc => powMod n fuel (b * b % n) (e / 2) (if e % 2 = 1 then acc * b % n else acc)

theorem powMod_eq (n fuel b e acc : Nat) (he : e < 2 ^ fuel) : powMod n fuel b e acc = acc * b ^ e % n := by
  induction fuel generalizing b e acc with
  | zero =>
    have : e = 0 := by simpa using he
    simp [powMod, this]
  | succ f ih =>
    have he2 : e / 2 < 2 ^ f := by rw [pow_succ] at he; omega
    rw [powMod, ih _ _ _ he2]
    have hp : (b * b % n) ^ (e / 2) ≡ b ^ (2 * (e / 2)) [MOD n] := by
      rw [pow_mul, sq]
      exact (Nat.mod_modEq _ _).pow _
    have hd := Nat.div_add_mod e 2
    split
    · rename_i h1
      rw [h1] at hd
      have h2 : acc * b % n ≡ acc * b [MOD n] := Nat.mod_modEq _ _
      have := h2.mul hp
      refine Eq.trans this ?_
      conv_rhs => rw [← hd]
      congr 1
      ring
    · rename_i h1
      have h0 : e % 2 = 0 := by omega
      rw [h0, add_zero] at hd
      have := (Nat.ModEq.refl (n := n) acc).mul hp
      rw [hd] at this
      exact this

/-- Lucas' test with an explicit factorisation of `n - 1`. -/
theorem lucas (n a : Nat) (l : List Nat) (h1 : 1 < n) (hl : ∀ r ∈ l, r.Prime) (hp : l.prod = n - 1)
    (hb : n < 2 ^ 256) (ha : powMod n 256 a (n - 1) 1 = 1)
    (hn : ∀ r ∈ l, powMod n 256 a ((n - 1) / r) 1 ≠ 1) : n.Prime := by
  have key : ∀ e : Nat, e < 2 ^ 256 → (((a : ZMod n) ^ e = 1) ↔ powMod n 256 a e 1 = 1) := by
    intro e he
    rw [powMod_eq _ _ _ _ _ he, one_mul]
    rw [← Nat.cast_pow, ← Nat.cast_one, ZMod.natCast_eq_natCast_iff, Nat.ModEq, Nat.mod_eq_of_lt h1]
  refine lucas_primality n (a : ZMod n) ((key _ (by omega)).mpr ha) (fun q hq hd h => ?_)
  exact hn q (prime_dvd_prod hq hl (hp ▸ hd)) ((key _ (by
    have := Nat.div_le_self (n - 1) q; omega)).mp h)

theorem prime_8574133 : Nat.Prime 8574133 := by
  refine lucas _ 2 [2, 2, 3, 7, 103, 991] (by norm_num) ?_ (by norm_num) (by norm_num) (by decide +kernel) (by decide +kernel)
  · simp only [List.forall_mem_cons, List.not_mem_nil, false_imp_iff, implies_true, and_true]
    exact ⟨(by norm_num), (by norm_num), (by norm_num), (by norm_num), (by norm_num), (by norm_num)⟩

theorem prime_1923133 : Nat.Prime 1923133 := by
  refine lucas _ 2 [2, 2, 3, 43, 3727] (by norm_num) ?_ (by norm_num) (by norm_num) (by decide +kernel) (by decide +kernel)
  · simp only [List.forall_mem_cons, List.not_mem_nil, false_imp_iff, implies_true, and_true]
    exact ⟨(by norm_num), (by norm_num), (by norm_num), (by norm_num), (by norm_num)⟩

theorem prime_2773320623 : Nat.Prime 2773320623 := by
  refine lucas _ 5 [2, 2437, 569003] (by norm_num) ?_ (by norm_num) (by norm_num) (by decide +kernel) (by decide +kernel)
  · simp only [List.forall_mem_cons, List.not_mem_nil, false_imp_iff, implies_true, and_true]
    exact ⟨(by norm_num), (by norm_num), (by norm_num)⟩

theorem prime_72106336199 : Nat.Prime 72106336199 := by
  refine lucas _ 7 [2, 13, 2773320623] (by norm_num) ?_ (by norm_num) (by norm_num) (by decide +kernel) (by decide +kernel)
  · simp only [List.forall_mem_cons, List.not_mem_nil, false_imp_iff, implies_true, and_true]
    exact ⟨(by norm_num), (by norm_num), prime_2773320623⟩

theorem prime_1919519569386763 : Nat.Prime 1919519569386763 := by
  refine lucas _ 2 [2, 3, 7, 19, 47, 47, 127, 8574133] (by norm_num) ?_ (by norm_num) (by norm_num) (by decide +kernel) (by decide +kernel)
  · simp only [List.forall_mem_cons, List.not_mem_nil, false_imp_iff, implies_true, and_true]
    exact ⟨(by norm_num), (by norm_num), (by norm_num), (by norm_num), (by norm_num), (by norm_num), (by norm_num), prime_8574133⟩

theorem prime_31757755568855353 : Nat.Prime 31757755568855353 := by
  refine lucas _ 10 [2, 2, 2, 3, 31, 107, 223, 4153, 430751] (by norm_num) ?_ (by norm_num) (by norm_num) (by decide +kernel) (by decide +kernel)
  · simp only [List.forall_mem_cons, List.not_mem_nil, false_imp_iff, implies_true, and_true]
    exact ⟨(by norm_num), (by norm_num), (by norm_num), (by norm_num), (by norm_num), (by norm_num), (by norm_num), (by norm_num), (by norm_num)⟩

theorem prime_75445702479781427272750846543864801 : Nat.Prime 75445702479781427272750846543864801 := by
  refine lucas _ 7 [2, 2, 2, 2, 2, 3, 3, 5, 5, 75707, 72106336199, 1919519569386763] (by norm_num) ?_ (by norm_num) (by norm_num) (by decide +kernel) (by decide +kernel)
  · simp only [List.forall_mem_cons, List.not_mem_nil, false_imp_iff, implies_true, and_true]
    exact ⟨(by norm_num), (by norm_num), (by norm_num), (by norm_num), (by norm_num), (by norm_num), (by norm_num), (by norm_num), (by norm_num), (by norm_num), prime_72106336199, prime_1919519569386763⟩

theorem prime_q : Nat.Prime 74058212732561358302231226437062788676166966415465897661863160754340907 := by
  refine lucas _ 2 [2, 3, 353, 57467, 132049, 1923133, 31757755568855353, 75445702479781427272750846543864801] (by norm_num) ?_ (by norm_num) (by norm_num) (by decide +kernel) (by decide +kernel)
  · simp only [List.forall_mem_cons, List.not_mem_nil, false_imp_iff, implies_true, and_true]
    exact ⟨(by norm_num), (by norm_num), (by norm_num), (by norm_num), (by norm_num), prime_1923133, prime_31757755568855353, prime_75445702479781427272750846543864801⟩

theorem prime_p : Nat.Prime 57896044618658097711785492504343953926634992332820282019728792003956564819949 := by
  refine lucas _ 2 [2, 2, 3, 65147, 74058212732561358302231226437062788676166966415465897661863160754340907] (by norm_num) ?_ (by norm_num) (by norm_num) (by decide +kernel) (by decide +kernel)
  · simp only [List.forall_mem_cons, List.not_mem_nil, false_imp_iff, implies_true, and_true]
    exact ⟨(by norm_num), (by norm_num), (by norm_num), (by norm_num), prime_q⟩

end CryptoPure.Prime
