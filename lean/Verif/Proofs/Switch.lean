import Verif.Proofs.Game
import Mathlib.Logic.Equiv.Basic
import Mathlib.Algebra.Group.Action.Defs
import Mathlib.Algebra.Module.Defs
import Mathlib.Tactic.Ring
import Mathlib.Tactic.Positivity

/-! # A random permutation against a random function -/

namespace CryptoPure.Switch

variable {α R : Type}

/-- `f F` can be computed with at most `q` queries to `F`, each depending on the answers to the earlier ones. -/
inductive Queries : Nat → ((α → α) → R) → Prop
  | const (q : Nat) (r : R) : Queries q (fun _ => r)
  | ask {q : Nat} (x : α) (h : α → (α → α) → R) : (∀ y, Queries q (h y)) → Queries (q + 1) (fun F => h (F x) F)

theorem Queries.mono {q : Nat} {f : (α → α) → R} (h : Queries q f) {q' : Nat} (hq : q ≤ q') : Queries q' f := by
  induction h generalizing q' with
  | const q r => exact .const _ _
  | ask x h _ ih =>
    obtain ⟨c, rfl⟩ := Nat.exists_eq_add_of_le hq
    rw [show ∀ a : Nat, a + 1 + c = (a + c) + 1 by intro a; omega]
    exact .ask x h fun y => ih y (by omega)

theorem Queries.bind {R' : Type} {q q' : Nat} {f : (α → α) → R} (h : Queries q f) (k : R → (α → α) → R') (hk : ∀ r, Queries q' (k r)) :
    Queries (q + q') (fun F => k (f F) F) := by
  induction h with
  | const q r => exact (hk r).mono (by omega)
  | @ask q x h _ ih =>
    rw [show q + 1 + q' = (q + q') + 1 by omega]
    exact .ask x (fun y F => k (h y F) F) fun y => ih y

theorem Queries.map {R' : Type} {q : Nat} {f : (α → α) → R} (h : Queries q f) (k : R → R') : Queries q (fun F => k (f F)) := by
  have := h.bind (q' := 0) (fun r _ => k r) (fun r => .const _ _)
  simpa using this

/-- A function that looks at `F` only at the points of a list. -/
theorem Queries.of_list (xs : List α) (g : List α → R) : Queries xs.length (fun F => g (xs.map F)) := by
  induction xs generalizing g with
  | nil => exact .const 0 (g [])
  | cons x xs ih =>
    exact .ask x (fun y F => g (y :: xs.map F)) fun y => ih (fun l => g (y :: l))

theorem Queries.of_local (xs : List α) (f : (α → α) → R) (h : ∀ F F', (∀ x ∈ xs, F x = F' x) → f F = f F') : Queries xs.length f := by
  classical
  let g : List α → R := fun l => f (fun x => if h : ∃ F' : α → α, xs.map F' = l then h.choose x else x)
  have e : f = fun F => g (xs.map F) := by
    funext F
    refine h _ _ fun x hx => ?_
    have hex : ∃ F' : α → α, xs.map F' = xs.map F := ⟨F, rfl⟩
    show F x = dite _ _ _
    rw [dif_pos hex]
    exact (List.map_inj_left.mp hex.choose_spec x hx).symm
  rw [e]
  exact Queries.of_list xs g

/-! ## Conditional probabilities by counting -/

/-- The fraction of `S` on which `W` holds. -/
noncomputable def cprob {β : Type} (S : Set β) (W : β → Prop) : ℚ := ({b ∈ S | W b}.ncard : ℚ) / (S.ncard : ℚ)

theorem cprob_nonneg {β : Type} (S : Set β) (W : β → Prop) : 0 ≤ cprob S W := by unfold cprob; positivity

theorem cprob_le_one {β : Type} [Finite β] (S : Set β) (W : β → Prop) : cprob S W ≤ 1 := by
  unfold cprob
  refine div_le_one_of_le₀ ?_ (by positivity)
  exact_mod_cast Set.ncard_le_ncard (fun b (hb : b ∈ S ∧ W b) => hb.1) (Set.toFinite _)

theorem cprob_congr {β : Type} {S : Set β} {W W' : β → Prop} (h : ∀ b ∈ S, W b ↔ W' b) : cprob S W = cprob S W' := by
  unfold cprob
  congr 3
  ext b
  exact and_congr_right (h b)

theorem cprob_avg {β γ : Type} [Finite β] (S : Set β) (f : β → γ) (Y : Finset γ) (hS : S.Nonempty) (hmem : ∀ b ∈ S, f b ∈ Y)
    (heq : ∀ y ∈ Y, ∀ y' ∈ Y, {b ∈ S | f b = y}.ncard = {b ∈ S | f b = y'}.ncard) (W : β → Prop) :
    cprob S W = (∑ y ∈ Y, cprob {b ∈ S | f b = y} W) / Y.card ∧ ∀ y ∈ Y, {b ∈ S | f b = y}.Nonempty := by
  classical
  have : Fintype β := Fintype.ofFinite β
  obtain ⟨b0, hb0⟩ := hS
  have hpos : ∀ y ∈ Y, 0 < {b ∈ S | f b = y}.ncard := by
    intro y hy
    rw [heq y hy (f b0) (hmem b0 hb0), Set.ncard_pos]
    exact ⟨b0, hb0, rfl⟩
  have count : ∀ T : Set β, T ⊆ S → T.ncard = ∑ y ∈ Y, {b ∈ T | f b = y}.ncard := by
    intro T hT
    rw [Set.ncard_eq_toFinset_card', Finset.card_eq_sum_card_fiberwise (f := f) (t := Y) (fun b hb => hmem b (hT (by simpa using hb)))]
    refine Finset.sum_congr rfl fun y _ => ?_
    rw [Set.ncard_eq_toFinset_card']
    congr 1
    ext; simp
  refine ⟨?_, fun y hy => (Set.ncard_pos).mp (hpos y hy)⟩
  set e := {b ∈ S | f b = f b0}.ncard with he
  have he0 : 0 < e := hpos _ (hmem b0 hb0)
  have h1 : (S.ncard : ℚ) = Y.card * e := by
    rw [count S subset_rfl, Finset.sum_congr rfl (fun y hy => heq y hy (f b0) (hmem b0 hb0)), Finset.sum_const, smul_eq_mul]
    push_cast
    rfl
  have h2 : ({b ∈ S | W b}.ncard : ℚ) = ∑ y ∈ Y, cprob {b ∈ S | f b = y} W * e := by
    rw [count {b ∈ S | W b} (fun b hb => hb.1)]
    push_cast
    refine Finset.sum_congr rfl fun y hy => ?_
    unfold cprob
    rw [heq y hy (f b0) (hmem b0 hb0), ← he, div_mul_cancel₀ _ (by exact_mod_cast he0.ne')]
    congr 2
    ext b
    simp only [Set.mem_ofPred_eq]
    tauto
  have hY : (Y.card : ℚ) ≠ 0 := by
    have : 0 < Y.card := Finset.card_pos.mpr ⟨_, hmem b0 hb0⟩
    exact_mod_cast this.ne'
  have he' : (e : ℚ) ≠ 0 := by exact_mod_cast he0.ne'
  unfold cprob at h2 ⊢
  rw [h1, h2, ← Finset.sum_mul]
  field_simp

/-! ## The switching lemma -/

/-- The functions with prescribed values. -/
def SF (c : List (α × α)) : Set (α → α) := {F | ∀ p ∈ c, F p.1 = p.2}
/-- The permutations with prescribed values. -/
def SP (c : List (α × α)) : Set (Equiv.Perm α) := {π | ∀ p ∈ c, π p.1 = p.2}

theorem SF_cons (x y : α) (c : List (α × α)) : SF ((x, y) :: c) = {F ∈ SF c | F x = y} := by
  ext F
  simp only [SF, List.mem_cons, forall_eq_or_imp, Set.mem_ofPred_eq]
  tauto

theorem SP_cons (x y : α) (c : List (α × α)) : SP ((x, y) :: c) = {π ∈ SP c | π x = y} := by
  ext F
  simp only [SP, List.mem_cons, forall_eq_or_imp, Set.mem_ofPred_eq]
  tauto

theorem arith [Fintype α] [DecidableEq α] (p M : Nat) (Z Y : Finset α) (hZ : Z.card = p) (hY : Y.card = M) (hM : 0 < M)
    (hd : Disjoint Z Y) (hu : Z ∪ Y = Finset.univ) (a b : α → ℚ) (h0 : ∀ y, 0 ≤ a y) (h1 : ∀ y, a y ≤ 1) (ε : ℚ)
    (h : ∀ y ∈ Y, |a y - b y| ≤ ε) :
    |(∑ y, a y) / ((p + M : Nat) : ℚ) - (∑ y ∈ Y, b y) / M| ≤ p / ((p + M : Nat) : ℚ) + ε := by
  have hMq : (0 : ℚ) < M := by exact_mod_cast hM
  have hNq : (0 : ℚ) < ((p + M : Nat) : ℚ) := by exact_mod_cast (by omega : 0 < p + M)
  have hpq : (0 : ℚ) ≤ p := by positivity
  rw [← hu, Finset.sum_union hd]
  have z0 : 0 ≤ ∑ y ∈ Z, a y := Finset.sum_nonneg fun y _ => h0 y
  have z1 : ∑ y ∈ Z, a y ≤ p := by
    calc _ ≤ ∑ y ∈ Z, (1 : ℚ) := Finset.sum_le_sum fun y _ => h1 y
      _ = p := by rw [Finset.sum_const, hZ]; simp
  have y0 : 0 ≤ ∑ y ∈ Y, a y := Finset.sum_nonneg fun y _ => h0 y
  have y1 : ∑ y ∈ Y, a y ≤ M := by
    calc _ ≤ ∑ y ∈ Y, (1 : ℚ) := Finset.sum_le_sum fun y _ => h1 y
      _ = M := by rw [Finset.sum_const, hY]; simp
  have d : |∑ y ∈ Y, a y - ∑ y ∈ Y, b y| ≤ M * ε := by
    rw [← Finset.sum_sub_distrib]
    refine (Finset.abs_sum_le_sum_abs _ _).trans ?_
    calc _ ≤ ∑ y ∈ Y, ε := Finset.sum_le_sum h
      _ = M * ε := by rw [Finset.sum_const, hY, nsmul_eq_mul]
  set Aw := ∑ y ∈ Y, a y
  set Bw := ∑ y ∈ Y, b y
  set Zw := ∑ y ∈ Z, a y
  have e1 : |(Aw - Bw) / M| ≤ ε := by
    rw [abs_div, abs_of_pos hMq, div_le_iff₀ hMq]
    linarith
  have e2 : |(Zw + Aw) / ((p + M : Nat) : ℚ) - Aw / M| ≤ p / ((p + M : Nat) : ℚ) := by
    rw [show (Zw + Aw) / ((p + M : Nat) : ℚ) - Aw / M = (Zw - p * (Aw / M)) / ((p + M : Nat) : ℚ) by
      field_simp; push_cast; ring]
    rw [abs_div, abs_of_pos hNq]
    refine div_le_div_of_nonneg_right ?_ hNq.le
    have q0 : 0 ≤ Aw / M := by positivity
    have q1 : Aw / M ≤ 1 := by rw [div_le_one hMq]; exact y1
    have q2 : (p : ℚ) * (Aw / M) ≤ p := by nlinarith
    have q3 : 0 ≤ (p : ℚ) * (Aw / M) := by positivity
    rw [abs_le]
    constructor <;> linarith
  have : (Zw + Aw) / ((p + M : Nat) : ℚ) - Bw / M = ((Zw + Aw) / ((p + M : Nat) : ℚ) - Aw / M) + (Aw - Bw) / M := by ring
  rw [this]
  exact (abs_add_le _ _).trans (add_le_add e2 e1)

theorem switch_cond [Finite α] {q : Nat} {W : (α → α) → Prop} (hW : Queries q W) (c : List (α × α)) (h1 : (c.map Prod.fst).Nodup)
    (h2 : (c.map Prod.snd).Nodup) (h3 : (SP c).Nonempty) :
    |cprob (SF c) W - cprob (SP c) (fun π => W π)| ≤ ((q * c.length + q * (q - 1) / 2 : ℚ)) / Nat.card α := by
  classical
  have : Fintype α := Fintype.ofFinite α
  have hF : (SF c).Nonempty := by
    obtain ⟨π, hπ⟩ := h3
    exact ⟨π, hπ⟩
  induction hW generalizing c with
  | const q r =>
    have e1 : cprob (SF c) (fun _ => r) = cprob (SP c) (fun _ => r) := by
      unfold cprob
      by_cases hr : r
      · have a1 : (((SF c).ncard : Nat) : ℚ) ≠ 0 := by exact_mod_cast ((Set.ncard_pos).mpr hF).ne'
        have a2 : (((SP c).ncard : Nat) : ℚ) ≠ 0 := by exact_mod_cast ((Set.ncard_pos).mpr h3).ne'
        simp [hr, a1, a2]
      · simp [hr]
    rw [e1, sub_self, abs_zero]
    refine div_nonneg ?_ (by positivity)
    have : (0 : ℚ) ≤ q * (q - 1) := by
      rcases Nat.eq_zero_or_pos q with h | h
      · simp [h]
      · have : (1 : ℚ) ≤ q := by exact_mod_cast h
        nlinarith
    positivity
  | @ask q x h hq ih =>
    have hq0 : (0 : ℚ) ≤ q := by positivity
    have hc0 : (0 : ℚ) ≤ c.length := by positivity
    by_cases hx : x ∈ c.map Prod.fst
    · obtain ⟨⟨x', y⟩, hp, hxx⟩ := List.mem_map.mp hx
      have hxx : x' = x := hxx
      subst hxx
      have e1 : cprob (SF c) (fun F => h (F x') F) = cprob (SF c) (h y) := cprob_congr fun F hF => by rw [hF _ hp]
      have e2 : cprob (SP c) (fun π => h (π x') π) = cprob (SP c) (fun π => h y π) := cprob_congr fun F hF => by rw [hF _ hp]
      rw [e1, e2]
      refine (ih y c h1 h2 h3 hF).trans (div_le_div_of_nonneg_right ?_ (by positivity))
      push_cast
      nlinarith
    · -- a new question
      let Z : Finset α := (c.map Prod.snd).toFinset
      let Y : Finset α := Finset.univ \ Z
      have hZ : Z.card = c.length := by rw [List.toFinset_card_of_nodup h2, List.length_map]
      have hinj : ∀ π ∈ SP c, π x ∉ Z := by
        intro π hπ hz
        obtain ⟨⟨x', y⟩, hp, hy⟩ := List.mem_map.mp (List.mem_toFinset.mp hz)
        have hy : y = π x := hy
        have := hπ _ hp
        have : x' = x := π.injective (this.trans hy)
        subst this
        exact hx (List.mem_map.mpr ⟨_, hp, rfl⟩)
      have A := cprob_avg (SF c) (fun F => F x) Finset.univ hF (fun _ _ => Finset.mem_univ _) (by
        intro y _ y' _
        refine Set.ncard_congr (fun F _ => Function.update F x y') ?_ ?_ ?_
        · rintro F ⟨hF, -⟩
          refine ⟨fun p hp => ?_, by simp⟩
          have hne : p.1 ≠ x := fun e => hx (List.mem_map.mpr ⟨p, hp, e⟩)
          rw [Function.update_of_ne hne]
          exact hF p hp
        · rintro F F' ⟨-, h1⟩ ⟨-, h2⟩ e
          funext z
          by_cases hz : z = x
          · subst hz; exact h1.trans h2.symm
          · have := congrFun e z
            rwa [Function.update_of_ne hz, Function.update_of_ne hz] at this
        · rintro F ⟨hF, hx'⟩
          have hx' : F x = y' := hx'
          refine ⟨Function.update F x y, ⟨fun p hp => ?_, by simp⟩, by simp [← hx']⟩
          have hne : p.1 ≠ x := fun e => hx (List.mem_map.mpr ⟨p, hp, e⟩)
          rw [Function.update_of_ne hne]
          exact hF p hp) (fun F => h (F x) F)
      have B := cprob_avg (SP c) (fun π => π x) Y h3 (fun π hπ => by
          rw [Finset.mem_sdiff]; exact ⟨Finset.mem_univ _, hinj π hπ⟩) (by
        intro y hy y' hy'
        have ny : ∀ p ∈ c, p.2 ≠ y ∧ p.2 ≠ y' := by
          intro p hp
          rw [Finset.mem_sdiff] at hy hy'
          refine ⟨fun e => hy.2 ?_, fun e => hy'.2 ?_⟩ <;>
            exact List.mem_toFinset.mpr (List.mem_map.mpr ⟨p, hp, e⟩)
        have key : ∀ π ∈ SP c, π.trans (Equiv.swap y y') ∈ SP c := by
          intro π hπ p hp
          rw [Equiv.trans_apply, hπ p hp, Equiv.swap_apply_of_ne_of_ne (ny p hp).1 (ny p hp).2]
        refine Set.ncard_congr (fun π _ => π.trans (Equiv.swap y y')) ?_ ?_ ?_
        · rintro π ⟨hπ, e⟩
          have e : π x = y := e
          exact ⟨key π hπ, by show Equiv.swap y y' (π x) = y'; rw [e, Equiv.swap_apply_left]⟩
        · intro π π' _ _ e
          ext z
          have := Equiv.congr_fun e z
          exact (Equiv.swap y y').injective this
        · rintro π ⟨hπ, e⟩
          have e : π x = y' := e
          refine ⟨π.trans (Equiv.swap y y'), ⟨key π hπ, by show Equiv.swap y y' (π x) = y; rw [e, Equiv.swap_apply_right]⟩, ?_⟩
          ext z
          simp) (fun π => h (π x) π)
      have hYpos : 0 < Y.card := by
        obtain ⟨π, hπ⟩ := h3
        exact Finset.card_pos.mpr ⟨π x, by rw [Finset.mem_sdiff]; exact ⟨Finset.mem_univ _, hinj π hπ⟩⟩
      have hcard : Nat.card α = c.length + Y.card := by
        rw [Nat.card_eq_fintype_card, ← Finset.card_univ, ← Finset.card_sdiff_add_card_eq_card (Finset.subset_univ Z), hZ]
        exact Nat.add_comm _ _
      rw [A.1, B.1, Finset.card_univ, ← Nat.card_eq_fintype_card, hcard]
      have ha : ∀ y, cprob {F ∈ SF c | F x = y} (fun F => h (F x) F) = cprob (SF ((x, y) :: c)) (h y) := by
        intro y
        rw [SF_cons]
        exact cprob_congr fun F hF => by rw [hF.2]
      have hb : ∀ y, cprob {π ∈ SP c | π x = y} (fun π => h (π x) π) = cprob (SP ((x, y) :: c)) (fun π => h y π) := by
        intro y
        rw [SP_cons]
        exact cprob_congr fun F hF => by rw [hF.2]
      refine (arith c.length Y.card Z Y hZ rfl hYpos Finset.disjoint_sdiff (by
        rw [Finset.union_sdiff_of_subset (Finset.subset_univ _)]) _ _ (fun y => cprob_nonneg _ _) (fun y => cprob_le_one _ _)
        ((q * (c.length + 1) + q * (q - 1) / 2) / Nat.card α) ?_).trans ?_
      · intro y hy
        rw [ha, hb]
        have hy' : y ∉ c.map Prod.snd := fun hz => (Finset.mem_sdiff.mp hy).2 (List.mem_toFinset.mpr hz)
        have := ih y ((x, y) :: c) (by rw [List.map_cons, List.nodup_cons]; exact ⟨hx, h1⟩)
          (by rw [List.map_cons, List.nodup_cons]; exact ⟨hy', h2⟩) (by rw [SP_cons]; exact B.2 y hy)
          (by rw [SF_cons]; exact A.2 y (Finset.mem_univ _))
        rw [List.length_cons] at this
        push_cast at this
        exact this
      · rw [hcard, ← add_div]
        refine div_le_div_of_nonneg_right (le_of_eq ?_) (by positivity)
        push_cast
        ring

open Game in
/-- The switching lemma: `q` queries tell a random permutation from a random function with advantage at most
`q (q - 1) / 2 N`. -/
theorem switch [Finite α] {q : Nat} {W : (α → α) → Prop} (hW : Queries q W) :
    |prob (fun F : α → α => W F) - prob (fun π : Equiv.Perm α => W π)| ≤ ((q * (q - 1) / 2 : ℚ)) / Nat.card α := by
  have := switch_cond hW [] (by simp) (by simp) ⟨1, by simp [SP]⟩
  have e1 : SF ([] : List (α × α)) = Set.univ := by ext; simp [SF]
  have e2 : SP ([] : List (α × α)) = Set.univ := by ext; simp [SP]
  unfold cprob at this
  rw [e1, e2] at this
  simpa [prob, Set.ncard_univ] using this

end CryptoPure.Switch
