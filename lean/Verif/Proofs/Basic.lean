import Verif.Basic
import Mathlib.Tactic.Ring
import Mathlib.Tactic.Linarith

/-! Lemmas about the shared vocabulary. -/

namespace CryptoPure

/-! ### Checked arithmetic -/

theorem addC_ok (m : Mode) {w : Nat} (x y : BitVec w) (h : x.toNat + y.toNat < 2 ^ w) :
    addC m x y = some (x + y) := by simp [addC, h]

theorem addC_debug_overflow {w : Nat} (x y : BitVec w) (h : ¬ x.toNat + y.toNat < 2 ^ w) :
    addC .debug x y = none := by simp [addC, h]

@[simp] theorem addC_release {w : Nat} (x y : BitVec w) : addC .release x y = some (x + y) := by
  simp [addC]

theorem mulC_ok (m : Mode) {w : Nat} (x y : BitVec w) (h : x.toNat * y.toNat < 2 ^ w) :
    mulC m x y = some (x * y) := by simp [mulC, h]

theorem mulC_debug_overflow {w : Nat} (x y : BitVec w) (h : ¬ x.toNat * y.toNat < 2 ^ w) :
    mulC .debug x y = none := by simp [mulC, h]

@[simp] theorem mulC_release {w : Nat} (x y : BitVec w) : mulC .release x y = some (x * y) := by
  simp [mulC]

@[simp] theorem assert_true : assert true = some () := rfl
@[simp] theorem assert_false : assert false = none := rfl

theorem assert_eq_some {b : Bool} {u : Unit} : assert b = some u ↔ b = true := by
  cases b <;> simp [assert]

theorem assert_eq_none {b : Bool} : assert b = none ↔ b = false := by
  cases b <;> simp [assert]

theorem assert_bind {α : Type} (b : Bool) (f : Unit → Option α) :
    (assert b >>= f) = if b then f () else none := by
  cases b <;> rfl

/-! ### chunks -/

section chunks
variable {α : Type}

theorem chunksAux_nil (n fuel : Nat) : chunksAux n fuel ([] : List α) = [] := by
  cases fuel <;> rfl

theorem chunksAux_fuel (n : Nat) (hn : 0 < n) : ∀ (f : Nat) (l : List α), l.length ≤ f →
    chunksAux n f l = chunksAux n l.length l := by
  intro f
  induction f using Nat.strongRecOn with
  | _ f ih =>
    intro l hl
    match f, l with
    | 0, [] => rfl
    | f + 1, [] => rfl
    | 0, a :: l => simp at hl
    | f + 1, a :: l =>
      simp only [List.length_cons, chunksAux]
      congr 1
      have h1 : ((a :: l).drop n).length ≤ f := by
        simp only [List.length_drop, List.length_cons] at *; omega
      have h2 : ((a :: l).drop n).length ≤ l.length := by
        simp only [List.length_drop, List.length_cons]; omega
      rw [ih f (by omega) _ h1]
      rcases Nat.lt_or_ge l.length (f + 1) with hlt | hge
      · rw [ih l.length (by omega) _ h2]
      · simp at hl; omega

@[simp] theorem chunks_nil (n : Nat) : chunks n ([] : List α) = [] := rfl

theorem chunks_of_ne_nil {n : Nat} (hn : 0 < n) {l : List α} (h : l ≠ []) :
    chunks n l = l.take n :: chunks n (l.drop n) := by
  match l with
  | [] => exact absurd rfl h
  | a :: l =>
    unfold chunks
    simp only [List.length_cons, chunksAux]
    congr 1
    apply chunksAux_fuel n hn
    simp only [List.length_drop, List.length_cons]; omega

theorem chunks_flatten {n : Nat} (hn : 0 < n) (l : List α) : (chunks n l).flatten = l := by
  induction h : l.length using Nat.strongRecOn generalizing l with
  | _ k ih =>
    by_cases hl : l = []
    · simp [hl]
    · rw [chunks_of_ne_nil hn hl, List.flatten_cons, ih (l.drop n).length _ _ rfl, List.take_append_drop]
      have : 0 < l.length := List.length_pos_iff.mpr hl
      simp; omega

theorem chunks_append_block {n : Nat} (hn : 0 < n) {b l : List α} (hb : b.length = n) :
    chunks n (b ++ l) = b :: chunks n l := by
  have hne : b ++ l ≠ [] := by
    intro h; have := congrArg List.length h; rw [List.length_append, List.length_nil] at this; omega
  rw [chunks_of_ne_nil hn hne]
  simp [← hb]

theorem chunks_append {n : Nat} (hn : 0 < n) {x y : List α} (hx : x.length % n = 0) :
    chunks n (x ++ y) = chunks n x ++ chunks n y := by
  induction h : x.length using Nat.strongRecOn generalizing x with
  | _ k ih =>
    by_cases hl : x = []
    · simp [hl]
    · have hpos : 0 < x.length := List.length_pos_iff.mpr hl
      have hge : n ≤ x.length := by
        rcases Nat.lt_or_ge x.length n with h1 | h1
        · rw [Nat.mod_eq_of_lt h1] at hx; omega
        · exact h1
      have e1 : x = x.take n ++ x.drop n := (List.take_append_drop n x).symm
      have hlen : (x.take n).length = n := by simp; omega
      rw [show x ++ y = x.take n ++ (x.drop n ++ y) by rw [← List.append_assoc, ← e1],
        chunks_append_block hn hlen, chunks_of_ne_nil hn hl]
      rw [ih (x.drop n).length (by simp; omega) (by
        simp only [List.length_drop]
        rw [← Nat.mod_eq_sub_mod hge]; exact hx) rfl]
      rfl

theorem chunks_singleton {n : Nat} {l : List α} (hl : l ≠ []) (h : l.length ≤ n) :
    chunks n l = [l] := by
  have : 0 < l.length := List.length_pos_iff.mpr hl
  rw [chunks_of_ne_nil (by omega) hl, List.take_of_length_le h, List.drop_of_length_le h, chunks_nil]

theorem chunks_mem_length {n : Nat} (hn : 0 < n) {l : List α} (h : l.length % n = 0) :
    ∀ c ∈ chunks n l, c.length = n := by
  induction hk : l.length using Nat.strongRecOn generalizing l with
  | _ k ih =>
    by_cases hl : l = []
    · simp [hl]
    · have hpos : 0 < l.length := List.length_pos_iff.mpr hl
      have hge : n ≤ l.length := by
        rcases Nat.lt_or_ge l.length n with h1 | h1
        · rw [Nat.mod_eq_of_lt h1] at h; omega
        · exact h1
      rw [chunks_of_ne_nil hn hl]
      intro c hc
      rcases List.mem_cons.mp hc with rfl | hc
      · simp; omega
      · refine ih (l.drop n).length (by simp; omega) ?_ rfl c hc
        simp only [List.length_drop]
        rw [← Nat.mod_eq_sub_mod hge]; exact h

theorem chunks_length {n : Nat} (hn : 0 < n) (l : List α) :
    (chunks n l).length = (l.length + n - 1) / n := by
  induction hk : l.length using Nat.strongRecOn generalizing l with
  | _ k ih =>
    by_cases hl : l = []
    · subst hl; subst hk
      simp only [chunks_nil, List.length_nil]
      symm; apply Nat.div_eq_of_lt; omega
    · have hpos : 0 < l.length := List.length_pos_iff.mpr hl
      rw [chunks_of_ne_nil hn hl, List.length_cons, ih (l.drop n).length (by simp; omega) _ rfl]
      simp only [List.length_drop, ← hk]
      rcases Nat.lt_or_ge l.length n with h1 | h1
      · rw [show l.length - n = 0 by omega]
        rw [show (0 + n - 1) / n = 0 from Nat.div_eq_of_lt (by omega)]
        rw [show l.length + n - 1 = (l.length - 1) + n by omega, Nat.add_div_right _ hn,
          Nat.div_eq_of_lt (by omega : l.length - 1 < n)]
      · rw [show l.length + n - 1 = (l.length - n + n - 1) + n by omega, Nat.add_div_right _ hn]

end chunks

/-! ### Byte order -/

@[simp] theorem toLE_length (k x : Nat) : (toLE k x).length = k := by
  induction k generalizing x with
  | zero => rfl
  | succ k ih => simp [toLE, ih]

@[simp] theorem toBE_length (k x : Nat) : (toBE k x).length = k := by simp [toBE]

@[simp] theorem zeros_length (k : Nat) : (zeros k).length = k := by simp [zeros]

theorem leNat_lt (b : Bytes) : leNat b < 256 ^ b.length := by
  induction b with
  | nil => simp [leNat]
  | cons x xs ih =>
    simp only [leNat, List.length_cons, Nat.pow_succ]
    have := x.isLt
    omega

theorem leNat_toLE (k x : Nat) : leNat (toLE k x) = x % 256 ^ k := by
  induction k generalizing x with
  | zero => simp [toLE, leNat, Nat.mod_one]
  | succ k ih =>
    simp only [toLE, leNat, ih, BitVec.toNat_ofNat]
    rw [Nat.pow_succ (m := k) (n := 256), Nat.mul_comm (256 ^ k) 256, Nat.mod_mul]

theorem toLE_leNat (b : Bytes) : toLE b.length (leNat b) = b := by
  induction b with
  | nil => rfl
  | cons x xs ih =>
    simp only [List.length_cons, toLE, leNat]
    have hx := x.isLt
    congr 1
    · apply BitVec.eq_of_toNat_eq
      simp only [BitVec.toNat_ofNat]
      omega
    · rw [show (x.toNat + 256 * leNat xs) / 256 = leNat xs by omega, ih]

theorem leNat_append (a b : Bytes) : leNat (a ++ b) = leNat a + 256 ^ a.length * leNat b := by
  induction a with
  | nil => simp [leNat]
  | cons x xs ih => simp only [List.cons_append, leNat, ih, List.length_cons, Nat.pow_succ]; ring

theorem leNat_inj {a b : Bytes} (hl : a.length = b.length) (h : leNat a = leNat b) : a = b := by
  rw [← toLE_leNat a, ← toLE_leNat b, hl, h]

theorem beNat_toBE (k x : Nat) : beNat (toBE k x) = x % 256 ^ k := by
  simp [beNat, toBE, leNat_toLE]

theorem beNat_inj {a b : Bytes} (hl : a.length = b.length) (h : beNat a = beNat b) : a = b := by
  have := leNat_inj (a := a.reverse) (b := b.reverse) (by simpa using hl) h
  simpa using this

theorem toLE_inj {k x y : Nat} (hx : x < 256 ^ k) (hy : y < 256 ^ k) (h : toLE k x = toLE k y) : x = y := by
  have := congrArg leNat h
  rwa [leNat_toLE, leNat_toLE, Nat.mod_eq_of_lt hx, Nat.mod_eq_of_lt hy] at this

theorem toBE_inj {k x y : Nat} (hx : x < 256 ^ k) (hy : y < 256 ^ k) (h : toBE k x = toBE k y) : x = y :=
  toLE_inj hx hy (List.reverse_inj.mp h)

theorem leNat_zeros (k : Nat) : leNat (zeros k) = 0 := by
  induction k with
  | zero => rfl
  | succ k ih => simpa [zeros, List.replicate_succ, leNat] using ih

/-! ### copyAt, xorBytes -/

theorem copyAt_length {α : Type} {buf src : List α} {off : Nat} (h : off + src.length ≤ buf.length) :
    (copyAt buf off src).length = buf.length := by
  simp [copyAt]; omega

theorem copyAt_zero {α : Type} (buf src : List α) : copyAt buf 0 src = src ++ buf.drop src.length := by
  simp [copyAt]

@[simp] theorem xorBytes_length (a b : Bytes) : (xorBytes a b).length = min a.length b.length := by
  simp [xorBytes]

theorem xorBytes_cancel (a b : Bytes) (h : a.length ≤ b.length) : xorBytes (xorBytes a b) b = a := by
  induction a generalizing b with
  | nil => simp [xorBytes]
  | cons x xs ih =>
    match b with
    | [] => simp at h
    | y :: ys =>
      have := ih ys (by simpa using h)
      simp only [xorBytes, List.zipWith_cons_cons] at this ⊢
      rw [this, BitVec.xor_assoc, BitVec.xor_self, BitVec.xor_zero]

theorem xorBytes_append {a b c d : Bytes} (h : a.length = c.length) :
    xorBytes (a ++ b) (c ++ d) = xorBytes a c ++ xorBytes b d := by
  simp [xorBytes, List.zipWith_append h]

theorem xorBytes_comm (a b : Bytes) : xorBytes a b = xorBytes b a := by
  unfold xorBytes; rw [List.zipWith_comm]; congr 1; funext x y; exact BitVec.xor_comm _ _

end CryptoPure
