import Verif.Proofs.ShaIdeal

/-! # A random block cipher, queried in both directions

`B` are the keys of the cipher, `C` its blocks; a triple `(b, x, y)` says that `x` is enciphered to `y` under `b`. -/

namespace CryptoPure.Proofs.CipherIdeal
open Game Switch HmacIdeal

variable {B C T : Type}

/-- A computation that enciphers (`true`) and deciphers (`false`). -/
inductive Tree (B C : Type) where
  | stop
  | ask (fwd : Bool) (b : B) (x : C) (next : C → Tree B C)

/-- The answer to a question. -/
def ans (E : B → Equiv.Perm C) (fwd : Bool) (b : B) (x : C) : C := if fwd then E b x else (E b).symm x

/-- What is learnt from the answer. -/
def tri (fwd : Bool) (b : B) (x y : C) : B × C × C := if fwd then (b, x, y) else (b, y, x)

theorem tri_ans (E : B → Equiv.Perm C) (fwd : Bool) (b : B) (x : C) :
    E (tri fwd b x (ans E fwd b x)).1 (tri fwd b x (ans E fwd b x)).2.1 = (tri fwd b x (ans E fwd b x)).2.2 := by
  cases fwd <;> simp [tri, ans]

/-- All that is learnt. -/
def Tree.trace (E : B → Equiv.Perm C) : Tree B C → List (B × C × C)
  | .stop => []
  | .ask fwd b x next => tri fwd b x (ans E fwd b x) :: (next (ans E fwd b x)).trace E

/-- At most `n` questions. -/
def Tree.Within : Tree B C → Nat → Prop
  | .stop, _ => True
  | .ask _ _ _ next, n => ∃ n', n = n' + 1 ∧ ∀ y, (next y).Within n'

theorem Tree.Within.mono {t : Tree B C} {n n' : Nat} (h : t.Within n) (hn : n ≤ n') : t.Within n' := by
  induction t generalizing n n' with
  | stop => trivial
  | ask fwd b x next ih =>
    obtain ⟨m, rfl, h⟩ := h
    exact ⟨n' - 1, by omega, fun y => ih y (h y) (by omega)⟩

/-- At a triple outside `known` the value is one of those in `seen`, to which the values for the first `k` questions are added. -/
def Bad (val : C → C → T) (E : B → Equiv.Perm C) : Tree B C → Nat → List (B × C × C) → List T → Prop
  | .stop, _, _, _ => False
  | .ask fwd b x next, k, known, seen =>
    (tri fwd b x (ans E fwd b x) ∉ known ∧ val (tri fwd b x (ans E fwd b x)).2.1 (tri fwd b x (ans E fwd b x)).2.2 ∈ seen) ∨
    Bad val E (next (ans E fwd b x)) (k - 1) (tri fwd b x (ans E fwd b x) :: known)
      (if k = 0 then seen else val (tri fwd b x (ans E fwd b x)).2.1 (tri fwd b x (ans E fwd b x)).2.2 :: seen)

theorem not_bad {val : C → C → T} {E : B → Equiv.Perm C} (t : Tree B C) (k : Nat) (known : List (B × C × C)) (seen : List T)
    (hb : ¬ Bad val E t k known seen) :
    (∀ q ∈ t.trace E, q ∉ known → val q.2.1 q.2.2 ∉ seen) ∧
    ∀ q ∈ t.trace E, ∀ r ∈ (t.trace E).take k, q ∉ known → r ∉ known → val q.2.1 q.2.2 = val r.2.1 r.2.2 → q = r := by
  induction t generalizing k known seen with
  | stop => simp [Tree.trace]
  | ask fwd b x next ih =>
    unfold Bad at hb
    push Not at hb
    obtain ⟨h1, h2⟩ := hb
    rw [Tree.trace]
    generalize tri fwd b x (ans E fwd b x) = z at *
    obtain ⟨i1, i2⟩ := ih _ _ _ _ h2
    have key : ∀ q ∈ (next (ans E fwd b x)).trace E, q ∉ known → q ≠ z → val q.2.1 q.2.2 ∉ seen ∧ (k ≠ 0 → val q.2.1 q.2.2 ≠ val z.2.1 z.2.2) := by
      intro q hq hk hz
      have := i1 q hq (by simp [hz, hk])
      split at this
      · next h0 => exact ⟨this, fun h => absurd h0 h⟩
      · simp only [List.mem_cons, not_or] at this
        exact ⟨this.2, fun _ => this.1⟩
    refine ⟨?_, ?_⟩
    · intro q hq hk
      by_cases hz : q = z
      · subst hz; exact h1 hk
      · exact (key q ((List.mem_cons.mp hq).resolve_left hz) hk hz).1
    · intro q hq r hr hk hk' e
      rcases k with _ | k
      · simp at hr
      rw [List.take_succ_cons] at hr
      by_cases hz : q = z
      · by_cases hz' : r = z
        · rw [hz, hz']
        · have hr' := (List.mem_cons.mp hr).resolve_left hz'
          exact absurd (by rw [← e, hz]) ((key r (List.mem_of_mem_take hr') hk' hz').2 (by omega))
      · have hq' := (List.mem_cons.mp hq).resolve_left hz
        by_cases hz' : r = z
        · exact absurd (by rw [e, hz']) ((key q hq' hk hz).2 (by omega))
        · have hr' := (List.mem_cons.mp hr).resolve_left hz'
          exact i2 q hq' r (by simpa using hr') (by simp [hz, hk]) (by simp [hz', hk']) e

/-! ## Counting -/

/-- If any two values outside `Z` can be exchanged, no set of values is much more likely than for a uniform value. -/
theorem spread {β : Type} [Finite β] [Finite C] [DecidableEq C] (S : Set β) (f : β → C) (Z : List C) (hZ : ∀ e ∈ S, f e ∉ Z) (σ : C → C → β → β)
    (hσ : ∀ y ∉ Z, ∀ y' ∉ Z, ∀ e ∈ S, σ y y' e ∈ S ∧ f (σ y y' e) = Equiv.swap y y' (f e) ∧ σ y y' (σ y y' e) = e)
    (V : C → Prop) (hlen : 2 * Z.length ≤ Nat.card C) : cprob S (fun e => V (f e)) ≤ 2 * prob V := by
  classical
  have : Fintype C := Fintype.ofFinite C
  rcases S.eq_empty_or_nonempty with rfl | hS
  · have : cprob (∅ : Set β) (fun e => V (f e)) = 0 := by unfold cprob; simp
    rw [this]
    have : 0 ≤ prob V := by unfold prob; positivity
    linarith
  obtain ⟨e0, he0⟩ := hS
  have hcard : 0 < Nat.card C := by
    have : Nonempty C := ⟨f e0⟩
    exact Nat.card_pos
  let Y : Finset C := Finset.univ \ Z.toFinset
  have hY : ∀ y, y ∈ Y ↔ y ∉ Z := by intro y; simp [Y]
  have A := cprob_avg S f Y ⟨e0, he0⟩ (fun e he => (hY _).mpr (hZ e he)) (by
    intro y hy y' hy'
    rw [hY] at hy hy'
    have hs := hσ y hy y' hy'
    refine Set.ncard_congr (fun e _ => σ y y' e) ?_ ?_ ?_
    · rintro e ⟨he, h⟩
      obtain ⟨a, b, -⟩ := hs e he
      exact ⟨a, by show f _ = _; rw [b, show f e = y from h, Equiv.swap_apply_left]⟩
    · rintro e e' ⟨he, -⟩ ⟨he', -⟩ h
      have h : σ y y' e = σ y y' e' := h
      rw [← (hs e he).2.2, h, (hs e' he').2.2]
    · rintro e ⟨he, h⟩
      obtain ⟨a, b, c⟩ := hs e he
      exact ⟨σ y y' e, ⟨a, by show f _ = _; rw [b, show f e = y' from h, Equiv.swap_apply_right]⟩, c⟩) (fun e => V (f e))
  rw [A.1]
  have hterm : ∀ y ∈ Y, cprob {e ∈ S | f e = y} (fun e => V (f e)) ≤ if V y then 1 else 0 := by
    intro y _
    split
    · exact cprob_le_one _ _
    · next h =>
      refine le_of_eq ?_
      unfold cprob
      have : {e | e ∈ {e ∈ S | f e = y} ∧ V (f e)} = ∅ := by
        ext e
        simp only [Set.mem_ofPred_eq, Set.mem_empty_iff_false, iff_false, not_and]
        rintro ⟨-, rfl⟩
        exact h
      rw [this]
      simp
  have hsum : ∑ y ∈ Y, cprob {e ∈ S | f e = y} (fun e => V (f e)) ≤ ({y | V y}.ncard : ℚ) := by
    refine (Finset.sum_le_sum hterm).trans ?_
    rw [Finset.sum_ite, Finset.sum_const_zero, add_zero, Finset.sum_const, nsmul_eq_mul, mul_one, Set.ncard_eq_toFinset_card']
    exact_mod_cast Finset.card_le_card fun y hy => by simpa using (Finset.mem_filter.mp hy).2
  have hYc : (Nat.card C : ℚ) ≤ 2 * Y.card := by
    have h1 : Z.toFinset.card ≤ Z.length := List.toFinset_card_le _
    have h2 : Y.card + Z.toFinset.card = Nat.card C := by
      rw [Finset.card_sdiff_add_card_eq_card (Finset.subset_univ _), Finset.card_univ, Nat.card_eq_fintype_card]
    exact_mod_cast (by omega : Nat.card C ≤ 2 * Y.card)
  have hc : (0 : ℚ) < Nat.card C := by exact_mod_cast hcard
  have hyp : (0 : ℚ) < Y.card := by linarith
  unfold prob
  rw [← mul_div_assoc, div_le_div_iff₀ hyp hc]
  have h0 : (0 : ℚ) ≤ ({y | V y}.ncard : ℚ) := by positivity
  calc _ ≤ ({y | V y}.ncard : ℚ) * Nat.card C := mul_le_mul_of_nonneg_right hsum hc.le
    _ ≤ ({y | V y}.ncard : ℚ) * (2 * Y.card) := mul_le_mul_of_nonneg_left hYc h0
    _ = _ := by ring

/-- The ciphers with prescribed triples. -/
def Cons (c : List (B × C × C)) : Set (B → Equiv.Perm C) := {E | ∀ q ∈ c, E q.1 q.2.1 = q.2.2}

theorem cons_cons (fwd : Bool) (b : B) (x y : C) (c : List (B × C × C)) :
    {E ∈ Cons c | ans E fwd b x = y} = Cons (tri fwd b x y :: c) := by
  ext E
  simp only [Cons, List.mem_cons, forall_eq_or_imp, Set.mem_ofPred_eq]
  cases fwd
  · simp only [ans, tri, Bool.false_eq_true, if_false, Equiv.symm_apply_eq]
    rw [eq_comm]
    tauto
  · simp only [ans, tri, if_true]
    tauto

theorem cprob_false {β : Type} (S : Set β) {W : β → Prop} (h : ∀ e ∈ S, ¬ W e) : cprob S W = 0 := by
  unfold cprob
  have : {b | b ∈ S ∧ W b} = ∅ := by
    ext e
    simp only [Set.mem_ofPred_eq, Set.mem_empty_iff_false, iff_false, not_and]
    exact h e
  rw [this]
  simp

theorem step [Finite B] [Finite C] (val : C → C → T) (ε : ℚ) (hε : 0 ≤ ε) (hv : ∀ x t, prob (fun y => val x y = t) ≤ ε)
    (hv' : ∀ y t, prob (fun x => val x y = t) ≤ ε) (fwd : Bool) (b : B) (x : C) (c : List (B × C × C)) (hc : 2 * c.length ≤ Nat.card C) (seen : List T) :
    cprob (Cons c) (fun E => tri fwd b x (ans E fwd b x) ∉ c ∧ val (tri fwd b x (ans E fwd b x)).2.1 (tri fwd b x (ans E fwd b x)).2.2 ∈ seen) ≤
      seen.length * (2 * ε) := by
  classical
  have h0 : 0 ≤ (seen.length : ℚ) * (2 * ε) := by positivity
  have hfil : ∀ (p : B × C × C → C), 2 * ((c.filter fun q => q.1 = b).map p).length ≤ Nat.card C := by
    intro p
    rw [List.length_map]
    have := List.length_filter_le (fun q : B × C × C => decide (q.1 = b)) c
    omega
  have hmem : ∀ (p : B × C × C → C) z, z ∈ (c.filter fun q => q.1 = b).map p ↔ ∃ q ∈ c, q.1 = b ∧ p q = z := by
    intro p z
    simp only [List.mem_map, List.mem_filter, decide_eq_true_eq, and_assoc]
  cases fwd
  · simp only [tri, ans, Bool.false_eq_true, if_false]
    by_cases hx : ∃ q ∈ c, q.1 = b ∧ q.2.2 = x
    · rw [cprob_false]
      · exact h0
      · rintro E hE ⟨h, -⟩
        obtain ⟨⟨b', z, y⟩, hq, rfl, rfl⟩ := hx
        have := hE _ hq
        refine h ?_
        simp only at this ⊢
        rw [← this, Equiv.symm_apply_apply, this]
        exact hq
    · refine le_trans (cprob_mono _ (Q := fun E => val ((E b).symm x) x ∈ seen) fun _ _ h => h.2) ?_
      refine le_trans (spread (Cons c) (fun E => (E b).symm x) ((c.filter fun q => q.1 = b).map fun q => q.2.1) ?_
        (fun y y' E => Function.update E b ((Equiv.swap y y').trans (E b))) ?_ (fun z => val z x ∈ seen) (hfil _)) ?_
      · intro E hE h
        obtain ⟨q, hq, hb, e⟩ := (hmem _ _).mp h
        refine hx ⟨q, hq, hb, ?_⟩
        have := hE q hq
        rw [hb, e, Equiv.apply_symm_apply] at this
        exact this.symm
      · intro y hy y' hy' E hE
        rw [hmem] at hy hy'
        refine ⟨?_, ?_, ?_⟩
        · intro q hq
          by_cases hb : q.1 = b
          · have n1 : q.2.1 ≠ y := fun e => hy ⟨q, hq, hb, e⟩
            have n2 : q.2.1 ≠ y' := fun e => hy' ⟨q, hq, hb, e⟩
            rw [hb, Function.update_self, Equiv.trans_apply, Equiv.swap_apply_of_ne_of_ne n1 n2, ← hb]
            exact hE q hq
          · rw [Function.update_of_ne hb]
            exact hE q hq
        · simp [Equiv.symm_trans_apply]
        · simp only [Function.update_self, Function.update_idem]
          rw [show (Equiv.swap y y').trans ((Equiv.swap y y').trans (E b)) = E b by ext z; simp]
          exact Function.update_eq_self _ _
      · have := prob_mem_list (fun z => val z x) ε (hv' x) seen
        linarith
  · simp only [tri, ans, if_true]
    by_cases hx : ∃ q ∈ c, q.1 = b ∧ q.2.1 = x
    · rw [cprob_false]
      · exact h0
      · rintro E hE ⟨h, -⟩
        obtain ⟨⟨b', z, y⟩, hq, rfl, rfl⟩ := hx
        have := hE _ hq
        refine h ?_
        simp only at this ⊢
        rw [this]
        exact hq
    · refine le_trans (cprob_mono _ (Q := fun E => val x (E b x) ∈ seen) fun _ _ h => h.2) ?_
      refine le_trans (spread (Cons c) (fun E => E b x) ((c.filter fun q => q.1 = b).map fun q => q.2.2) ?_
        (fun y y' E => Function.update E b ((E b).trans (Equiv.swap y y'))) ?_ (fun z => val x z ∈ seen) (hfil _)) ?_
      · intro E hE h
        obtain ⟨q, hq, hb, e⟩ := (hmem _ _).mp h
        refine hx ⟨q, hq, hb, ?_⟩
        have := hE q hq
        rw [hb, e] at this
        exact (E b).injective this
      · intro y hy y' hy' E hE
        rw [hmem] at hy hy'
        refine ⟨?_, ?_, ?_⟩
        · intro q hq
          by_cases hb : q.1 = b
          · have n1 : q.2.2 ≠ y := fun e => hy ⟨q, hq, hb, e⟩
            have n2 : q.2.2 ≠ y' := fun e => hy' ⟨q, hq, hb, e⟩
            have := hE q hq
            rw [hb] at this
            rw [hb, Function.update_self, Equiv.trans_apply, this, Equiv.swap_apply_of_ne_of_ne n1 n2]
          · rw [Function.update_of_ne hb]
            exact hE q hq
        · simp
        · simp only [Function.update_self, Function.update_idem]
          rw [show ((E b).trans (Equiv.swap y y')).trans (Equiv.swap y y') = E b by ext z; simp]
          exact Function.update_eq_self _ _
      · have := prob_mem_list (fun z => val x z) ε (hv x) seen
        linarith

theorem bad_le [Finite B] [Finite C] (val : C → C → T) (ε : ℚ) (hε : 0 ≤ ε) (hv : ∀ x t, prob (fun y => val x y = t) ≤ ε)
    (hv' : ∀ y t, prob (fun x => val x y = t) ≤ ε) (t : Tree B C) (n : Nat) (ht : t.Within n) (k : Nat) (hk : k ≤ n) (c : List (B × C × C))
    (hc : 2 * (c.length + n) ≤ Nat.card C) (seen : List T) :
    cprob (Cons c) (fun E => Bad val E t k c seen) ≤ (n * seen.length + k * n - k * (k + 1) / 2) * (2 * ε) := by
  induction t generalizing n k c seen with
  | stop =>
    have : cprob (Cons c) (fun E => Bad val E (Tree.stop : Tree B C) k c seen) = 0 := cprob_false _ fun _ _ h => h
    rw [this]
    have h1 : (k : ℚ) ≤ n := by exact_mod_cast hk
    have h2 : (0 : ℚ) ≤ k * n - k * (k + 1) / 2 := by
      rcases Nat.eq_zero_or_pos k with h | h
      · simp [h]
      · have h3 : (1 : ℚ) ≤ k := by exact_mod_cast h
        nlinarith
    have h3 : (0 : ℚ) ≤ n * seen.length := by positivity
    refine mul_nonneg ?_ (by positivity)
    linarith
  | ask fwd b x next ih =>
    obtain ⟨n, rfl, hn⟩ := ht
    refine le_trans (cprob_or _ _ _) ?_
    have h1 := step val ε hε hv hv' fwd b x c (by omega) seen
    have h2 : cprob (Cons c) (fun E => Bad val E (next (ans E fwd b x)) (k - 1) (tri fwd b x (ans E fwd b x) :: c)
        (if k = 0 then seen else val (tri fwd b x (ans E fwd b x)).2.1 (tri fwd b x (ans E fwd b x)).2.2 :: seen)) ≤
        ((n + 1 : Nat) * seen.length + k * (n + 1 : Nat) - k * (k + 1) / 2 - seen.length) * (2 * ε) := by
      refine cprob_cases _ (fun E => ans E fwd b x) _ _ ?_ fun y _ => ?_
      · refine mul_nonneg ?_ (by positivity)
        have h1 : (k : ℚ) ≤ (n + 1 : Nat) := by exact_mod_cast hk
        have h2 : (0 : ℚ) ≤ k * (n + 1 : Nat) - k * (k + 1) / 2 := by
          rcases Nat.eq_zero_or_pos k with h | h
          · simp [h]
          · have h3 : (1 : ℚ) ≤ k := by exact_mod_cast h
            nlinarith
        have h3 : (0 : ℚ) ≤ n * seen.length := by positivity
        push_cast at h2 ⊢
        linarith
      · rw [cons_cons]
        have hi := ih y n (hn y) (k - 1) (by omega) (tri fwd b x y :: c) (by rw [List.length_cons]; omega)
          (if k = 0 then seen else val (tri fwd b x y).2.1 (tri fwd b x y).2.2 :: seen)
        refine le_trans (le_of_eq (cprob_congr fun E hE => ?_)) (le_trans hi ?_)
        · rw [← cons_cons] at hE
          rw [show ans E fwd b x = y from hE.2]
        · refine mul_le_mul_of_nonneg_right (le_of_eq ?_) (by positivity)
          rcases k with _ | k
          · simp; ring
          · simp only [Nat.add_sub_cancel, Nat.succ_ne_zero, if_false, List.length_cons]
            push_cast
            ring
    linarith

end CryptoPure.Proofs.CipherIdeal
