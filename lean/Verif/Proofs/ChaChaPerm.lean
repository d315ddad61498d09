import Verif.Spec.PermGame
import Verif.Proofs.ChaCha20
import Mathlib.Data.Fintype.EquivFin
import Mathlib.SetTheory.Cardinal.Finite
import Mathlib.Data.Finite.Prod
import Mathlib.Tactic.FinCases
import Mathlib.Tactic.SplitIfs

/-! # The states of ChaCha20 -/

namespace CryptoPure.Proofs.ChaChaPerm
open Spec.ChaCha20

/-! ## The rounds are a permutation -/

theorem rotl_inj (x y : U32) (n : Nat) (hn : n < 32) (h : x.rotateLeft n = y.rotateLeft n) : x = y := by
  have e : ∀ z : U32, (z.rotateLeft n).rotateRight n = z := by
    intro z
    ext i hi
    simp only [BitVec.getElem_rotateRight, BitVec.getElem_rotateLeft, Nat.mod_eq_of_lt hn]
    split_ifs <;> first | omega | (congr 1; omega)
  rw [← e x, ← e y, h]

theorem xor_inj (x y a : U32) (h : x ^^^ a = y ^^^ a) : x = y := by
  have := congrArg (· ^^^ a) h
  simpa [BitVec.xor_assoc] using this

/-- One of the four steps of a quarter round. -/
theorem step_inj {a b d a' d' : U32} (n : Nat) (hn : n < 32) (h1 : a + b = a' + b) (h2 : (d ^^^ (a + b)).rotateLeft n = (d' ^^^ (a' + b)).rotateLeft n) :
    a = a' ∧ d = d' := by
  refine ⟨by simpa using h1, ?_⟩
  rw [h1] at h2
  exact xor_inj _ _ _ (rotl_inj _ _ n hn h2)

theorem quarterRound_inj (a b c d a' b' c' d' : U32) (h : quarterRound a b c d = quarterRound a' b' c' d') : a = a' ∧ b = b' ∧ c = c' ∧ d = d' := by
  have h0 := congrFun h 0
  have h1 := congrFun h 1
  have h2 := congrFun h 2
  have h3 := congrFun h 3
  simp only [quarterRound] at h0 h1 h2 h3
  obtain ⟨a1, ha1⟩ : ∃ x, x = a + b := ⟨_, rfl⟩
  obtain ⟨a1', ha1'⟩ : ∃ x, x = a' + b' := ⟨_, rfl⟩
  obtain ⟨d1, hd1⟩ : ∃ x, x = (d ^^^ a1).rotateLeft 16 := ⟨_, rfl⟩
  obtain ⟨d1', hd1'⟩ : ∃ x, x = (d' ^^^ a1').rotateLeft 16 := ⟨_, rfl⟩
  obtain ⟨c1, hc1⟩ : ∃ x, x = c + d1 := ⟨_, rfl⟩
  obtain ⟨c1', hc1'⟩ : ∃ x, x = c' + d1' := ⟨_, rfl⟩
  obtain ⟨b1, hb1⟩ : ∃ x, x = (b ^^^ c1).rotateLeft 12 := ⟨_, rfl⟩
  obtain ⟨b1', hb1'⟩ : ∃ x, x = (b' ^^^ c1').rotateLeft 12 := ⟨_, rfl⟩
  obtain ⟨a2, ha2⟩ : ∃ x, x = a1 + b1 := ⟨_, rfl⟩
  obtain ⟨a2', ha2'⟩ : ∃ x, x = a1' + b1' := ⟨_, rfl⟩
  obtain ⟨d2, hd2⟩ : ∃ x, x = (d1 ^^^ a2).rotateLeft 8 := ⟨_, rfl⟩
  obtain ⟨d2', hd2'⟩ : ∃ x, x = (d1' ^^^ a2').rotateLeft 8 := ⟨_, rfl⟩
  rw [← ha1, ← hd1, ← hc1, ← hb1, ← ha2, ← ha1', ← hd1', ← hc1', ← hb1', ← ha2'] at h0 h1 h2 h3
  rw [← hd2, ← hd2'] at h1 h2 h3
  subst h0
  subst h3
  have hc : c1 = c1' := by simpa using h2
  subst hc
  have hb : b1 = b1' := xor_inj _ _ _ (rotl_inj _ _ 7 (by norm_num) h1)
  subst hb
  have ha : a1 = a1' := by simpa using ha2.symm.trans ha2'
  subst ha
  have hd : d1 = d1' := xor_inj _ _ _ (rotl_inj _ _ 8 (by norm_num) (hd2.symm.trans hd2'))
  subst hd
  have hc0 : c = c' := by simpa using hc1.symm.trans hc1'
  have hb0 : b = b' := xor_inj _ _ _ (rotl_inj _ _ 12 (by norm_num) (hb1.symm.trans hb1'))
  subst hb0
  have ha0 : a = a' := by simpa using ha1.symm.trans ha1'
  have hd0 : d = d' := xor_inj _ _ _ (rotl_inj _ _ 16 (by norm_num) (hd1.symm.trans hd1'))
  exact ⟨ha0, rfl, hc0, hd0⟩

theorem columnRound_inj : Function.Injective columnRound := by
  intro s t h
  have key : ∀ c, s 0 c = t 0 c ∧ s 1 c = t 1 c ∧ s 2 c = t 2 c ∧ s 3 c = t 3 c := fun c =>
    quarterRound_inj _ _ _ _ _ _ _ _ (funext fun r => congrFun (congrFun h r) c)
  funext r c
  obtain ⟨h0, h1, h2, h3⟩ := key c
  match r with
  | 0 => exact h0
  | 1 => exact h1
  | 2 => exact h2
  | 3 => exact h3

theorem diagonalRound_inj : Function.Injective diagonalRound := by
  intro s t h
  have h1 : columnRound (fun r c => s r (c + r)) = columnRound (fun r c => t r (c + r)) := by
    funext r c
    have := congrFun (congrFun h r) (c + r)
    simpa [diagonalRound] using this
  have h2 := columnRound_inj h1
  funext r c
  have := congrFun (congrFun h2 r) (c - r)
  simpa using this

theorem doubleRounds_inj (n : Nat) : Function.Injective (doubleRounds n) := by
  induction n with
  | zero => exact fun _ _ h => h
  | succ n ih => exact fun s t h => columnRound_inj (diagonalRound_inj (ih h))

theorem finite_u32 : Finite U32 := Finite.of_injective BitVec.toFin (fun _ _ h => BitVec.toFin_inj.mp h)

instance finiteState : Finite State := by
  have := finite_u32
  infer_instance

/-- The 20 rounds of ChaCha20. -/
noncomputable def rounds : Equiv.Perm State := Equiv.ofBijective (doubleRounds 10) (Finite.injective_iff_bijective.mp (doubleRounds_inj 10))

theorem rounds_apply (s : State) : rounds s = doubleRounds 10 s := rfl

/-! ## Words -/

theorem word_ext (n : Nat) (a b : Bytes) (ha : a.length = 4 * n) (hb : b.length = 4 * n) (h : ∀ i < n, word a i = word b i) : a = b := by
  induction n generalizing a b with
  | zero => rw [List.length_eq_zero_iff.mp (by omega : a.length = 0), List.length_eq_zero_iff.mp (by omega : b.length = 0)]
  | succ n ih =>
    have h0 := h 0 (by omega)
    have e1 : a.take 4 = b.take 4 := by
      refine leNat_inj (by simp; omega) ?_
      have l1 := leNat_lt (a.take 4)
      have l2 := leNat_lt (b.take 4)
      rw [List.length_take, min_eq_left (by omega)] at l1 l2
      have := congrArg BitVec.toNat h0
      simp only [word, Nat.mul_zero, List.drop_zero, BitVec.toNat_ofNat] at this
      rwa [Nat.mod_eq_of_lt (by omega), Nat.mod_eq_of_lt (by omega)] at this
    have e2 : a.drop 4 = b.drop 4 := by
      refine ih _ _ (by simp; omega) (by simp; omega) fun i hi => ?_
      have := h (i + 1) (by omega)
      unfold word at this ⊢
      rw [List.drop_drop, List.drop_drop, show 4 + 4 * i = 4 * (i + 1) by ring]
      exact this
    rw [← List.take_append_drop 4 a, ← List.take_append_drop 4 b, e1, e2]

theorem init_inj (key key' : {k : Bytes // k.length = 32}) (x x' : {n : Bytes // n.length = 12} × U32)
    (h : init key.1 x.2 x.1.1 = init key'.1 x'.2 x'.1.1) : key = key' ∧ x = x' := by
  have hk : key.1 = key'.1 := by
    refine word_ext 8 _ _ key.2 key'.2 fun i hi => ?_
    by_cases h4 : i < 4
    · exact congrFun (congrFun h 1) ⟨i, h4⟩
    · have := congrFun (congrFun h 2) ⟨i - 4, by omega⟩
      have e : word key.1 (4 + (i - 4)) = word key'.1 (4 + (i - 4)) := this
      rwa [show 4 + (i - 4) = i by omega] at e
  have hn : x.1.1 = x'.1.1 := by
    refine word_ext 3 _ _ x.1.2 x'.1.2 fun i hi => ?_
    have := congrFun (congrFun h 3) ⟨i + 1, by omega⟩
    have hne : (⟨i + 1, by omega⟩ : Fin 4) ≠ 0 := by
      intro e
      have := congrArg Fin.val e
      simp at this
    simp only [init, if_neg hne] at this
    exact this
  have hc : x.2 = x'.2 := congrFun (congrFun h 3) 0
  exact ⟨Subtype.ext hk, Prod.ext (Subtype.ext hn) hc⟩

/-! ## Writing out a state -/

/-- The bytes of a state. -/
def out (s : State) : Bytes := (List.finRange 4).flatMap fun r => (List.finRange 4).flatMap fun c => toLE 4 (s r c).toNat

theorem word_zero (a : U32) (l : Bytes) : word (toLE 4 a.toNat ++ l) 0 = a := by
  unfold word
  rw [Nat.mul_zero, List.drop_zero, List.take_append_of_le_length (by simp), List.take_of_length_le (by simp), leNat_toLE]
  apply BitVec.eq_of_toNat_eq
  have := a.isLt
  simpa using this

theorem word_succ (n : Nat) (l : Bytes) (i : Nat) : word (toLE 4 n ++ l) (i + 1) = word l i := by
  unfold word
  rw [show 4 * (i + 1) = (toLE 4 n).length + 4 * i by simp; ring, List.drop_append, List.drop_eq_nil_of_le (by simp), List.nil_append,
    Nat.add_sub_cancel_left]

theorem word_one (a : U32) : word (toLE 4 a.toNat) 0 = a := by simpa using word_zero a []

attribute [local irreducible] toLE in
theorem out_eq (s : State) : out s =
    toLE 4 (s 0 0).toNat ++ (toLE 4 (s 0 1).toNat ++ (toLE 4 (s 0 2).toNat ++ (toLE 4 (s 0 3).toNat ++
    (toLE 4 (s 1 0).toNat ++ (toLE 4 (s 1 1).toNat ++ (toLE 4 (s 1 2).toNat ++ (toLE 4 (s 1 3).toNat ++
    (toLE 4 (s 2 0).toNat ++ (toLE 4 (s 2 1).toNat ++ (toLE 4 (s 2 2).toNat ++ (toLE 4 (s 2 3).toNat ++
    (toLE 4 (s 3 0).toNat ++ (toLE 4 (s 3 1).toNat ++ (toLE 4 (s 3 2).toNat ++ (toLE 4 (s 3 3).toNat ++ []))))))))))))))) := by
  have e : List.finRange 4 = [0, 1, 2, 3] := rfl
  simp only [out, List.flatMap_cons, List.flatMap_nil, e, List.append_nil, List.append_assoc]

theorem out_length (s : State) : (out s).length = 64 := by
  rw [out_eq]
  simp

theorem out_word (s : State) (r c : Fin 4) : word (out s) (4 * r.val + c.val) = s r c := by
  rw [out_eq]
  fin_cases r <;> fin_cases c <;> simp [word_succ, word_zero, word_one]

/-- A state after the rounds, and what is written out: the state before is added. -/
def mask (x : State) : State ≃ {b : Bytes // b.length = 64} where
  toFun y := ⟨out fun r c => y r c + x r c, out_length _⟩
  invFun b r c := word b.1 (4 * r.val + c.val) - x r c
  left_inv y := by
    funext r c
    show word (out fun r c => y r c + x r c) (4 * r.val + c.val) - x r c = y r c
    rw [out_word]
    exact BitVec.add_sub_cancel _ _
  right_inv b := by
    refine Subtype.ext (word_ext 16 _ _ (out_length _) b.2 fun i hi => ?_)
    have := out_word (fun r c => word b.1 (4 * r.val + c.val) - x r c + x r c) ⟨i / 4, by omega⟩ ⟨i % 4, Nat.mod_lt _ (by norm_num)⟩
    have e : 4 * (i / 4) + i % 4 = i := Nat.div_add_mod i 4
    simp only [e] at this
    refine Eq.trans this ?_
    exact BitVec.sub_add_cancel _ _

theorem mask_apply (x y : State) : (mask x y).1 = out fun r c => y r c + x r c := rfl

theorem mask_inj (x x' y : State) (h : mask x y = mask x' y) : x = x' := by
  have h : out (fun r c => y r c + x r c) = out (fun r c => y r c + x' r c) := congrArg Subtype.val h
  funext r c
  have h1 := out_word (fun r c => y r c + x r c) r c
  rw [h, out_word] at h1
  simpa using h1.symm

theorem card_state : Nat.card State = 2 ^ 512 := by
  have h : Nat.card U32 = 2 ^ 32 := by
    rw [Nat.card_congr (⟨BitVec.toFin, BitVec.ofFin, fun _ => rfl, fun _ => rfl⟩ : U32 ≃ Fin (2 ^ 32)), Nat.card_fin]
  rw [Nat.card_fun, Nat.card_fun, Nat.card_fin, h, ← pow_mul, ← pow_mul]

end CryptoPure.Proofs.ChaChaPerm
