import Verif.Proofs.Switch
import Verif.Spec.Distinguisher
import Mathlib.Data.Fintype.BigOperators
import Mathlib.Tactic.Linarith

/-! # Many random permutations against many random functions -/

namespace CryptoPure.Switch
open Distinguisher

variable {ι α : Type} [DecidableEq ι]

/-- At most `q` questions altogether, and at most `B` for each user, when `used` have been asked already. -/
def Budget (B : Nat) : Distinguisher (ι × α) α → Nat → (ι → Nat) → Prop
  | .verdict _, _, _ => True
  | .ask x next, q, used => ∃ q', q = q' + 1 ∧ used x.1 + 1 ≤ B ∧ ∀ y, Budget B (next y) q' (Function.update used x.1 (used x.1 + 1))

/-- The families of functions with prescribed values. -/
def MF (c : List ((ι × α) × α)) : Set (ι → α → α) := {F | ∀ p ∈ c, F p.1.1 p.1.2 = p.2}
/-- The families of permutations with prescribed values. -/
def MP (c : List ((ι × α) × α)) : Set (ι → Equiv.Perm α) := {π | ∀ p ∈ c, π p.1.1 p.1.2 = p.2}

omit [DecidableEq ι] in
theorem MF_cons (x : ι × α) (y : α) (c : List ((ι × α) × α)) : MF ((x, y) :: c) = {F ∈ MF c | F x.1 x.2 = y} := by
  ext F
  simp only [MF, List.mem_cons, forall_eq_or_imp, Set.mem_ofPred_eq]
  tauto

omit [DecidableEq ι] in
theorem MP_cons (x : ι × α) (y : α) (c : List ((ι × α) × α)) : MP ((x, y) :: c) = {π ∈ MP c | π x.1 x.2 = y} := by
  ext F
  simp only [MP, List.mem_cons, forall_eq_or_imp, Set.mem_ofPred_eq]
  tauto

/-- What `n` questions to one user save. -/
def saved (B n : Nat) : ℚ := n * (B - n) / 2

theorem saved_nonneg {B n : Nat} (h : n ≤ B) : 0 ≤ saved B n := by
  have : (n : ℚ) ≤ B := by exact_mod_cast h
  unfold saved
  have : (0 : ℚ) ≤ n := by positivity
  nlinarith

theorem sum_saved [Fintype ι] (B : Nat) (used : ι → Nat) (i : ι) :
    ∑ j, saved B (Function.update used i (used i + 1) j) = ∑ j, saved B (used j) + ((B - 1 : ℚ) / 2 - used i) := by
  classical
  rw [← Finset.add_sum_erase _ _ (Finset.mem_univ i), ← Finset.add_sum_erase _ (fun j => saved B (used j)) (Finset.mem_univ i), Function.update_self]
  have : ∑ j ∈ Finset.univ.erase i, saved B (Function.update used i (used i + 1) j) = ∑ j ∈ Finset.univ.erase i, saved B (used j) :=
    Finset.sum_congr rfl fun j hj => by rw [Function.update_of_ne (Finset.ne_of_mem_erase hj)]
  rw [this]
  unfold saved
  push_cast
  ring

set_option maxHeartbeats 1000000 in
theorem multi_cond [Fintype ι] [Finite α] (B : Nat) (D : Distinguisher (ι × α) α) (q : Nat) (used : ι → Nat) (hD : Budget B D q used)
    (hB : ∀ i, used i ≤ B) (hB1 : 1 ≤ B)
    (c : List ((ι × α) × α)) (h1 : (c.map Prod.fst).Nodup) (h2 : ∀ i, (c.filter fun p => p.1.1 = i).length ≤ used i) (h3 : (MP c).Nonempty) :
    |cprob (MF c) (fun F => D.run (fun x => F x.1 x.2) = true) - cprob (MP c) (fun π => D.run (fun x => π x.1 x.2) = true)| ≤
      (q * (B - 1) / 2 + ∑ i, saved B (used i)) / Nat.card α := by
  classical
  have : Fintype α := Fintype.ofFinite α
  have hF : (MF c).Nonempty := by
    obtain ⟨π, hπ⟩ := h3
    exact ⟨fun i => π i, hπ⟩
  have hB1' : (1 : ℚ) ≤ B := by exact_mod_cast hB1
  induction D generalizing q used c with
  | verdict r =>
    have e1 : cprob (MF c) (fun F => (Distinguisher.verdict r).run (fun x : ι × α => F x.1 x.2) = true) =
        cprob (MP c) (fun π => (Distinguisher.verdict r).run (fun x : ι × α => π x.1 x.2) = true) := by
      unfold cprob Distinguisher.run
      cases r
      · simp
      · have a1 : (((MF c).ncard : Nat) : ℚ) ≠ 0 := by exact_mod_cast ((Set.ncard_pos).mpr hF).ne'
        have a2 : (((MP c).ncard : Nat) : ℚ) ≠ 0 := by exact_mod_cast ((Set.ncard_pos).mpr h3).ne'
        simp [a1, a2]
    rw [e1, sub_self, abs_zero]
    have h0 : 0 ≤ ∑ i, saved B (used i) := Finset.sum_nonneg fun i _ => saved_nonneg (hB i)
    have hq : (0 : ℚ) ≤ q * (B - 1) / 2 := by
      have : (0 : ℚ) ≤ q := by positivity
      have : (0 : ℚ) ≤ q * (B - 1) := mul_nonneg this (by linarith)
      linarith
    exact div_nonneg (by linarith) (by positivity)
  | ask x next ih =>
    obtain ⟨q, rfl, hx1, hn⟩ := hD
    set used' := Function.update used x.1 (used x.1 + 1) with hu'
    have hB' : ∀ i, used' i ≤ B := by
      intro i
      by_cases hi : i = x.1
      · subst hi; rw [hu', Function.update_self]; exact hx1
      · rw [hu', Function.update_of_ne hi]; exact hB i
    have hmono : ∀ i, used i ≤ used' i := by
      intro i
      by_cases hi : i = x.1
      · subst hi; rw [hu', Function.update_self]; omega
      · rw [hu', Function.update_of_ne hi]
    have hsum := sum_saved B used x.1
    rw [← hu'] at hsum
    have hux0 : (0 : ℚ) ≤ used x.1 := by positivity
    show |cprob (MF c) (fun F => (next (F x.1 x.2)).run (fun x => F x.1 x.2) = true) -
      cprob (MP c) (fun π => (next (π x.1 x.2)).run (fun x => π x.1 x.2) = true)| ≤ _
    by_cases hx : x ∈ c.map Prod.fst
    · obtain ⟨⟨x', y⟩, hp, hxx⟩ := List.mem_map.mp hx
      have hxx : x' = x := hxx
      subst hxx
      have e1 : cprob (MF c) (fun F => (next (F x'.1 x'.2)).run (fun x => F x.1 x.2) = true) = cprob (MF c) (fun F => (next y).run (fun x => F x.1 x.2) = true) :=
        cprob_congr fun F hF => by rw [hF _ hp]
      have e2 : cprob (MP c) (fun F => (next (F x'.1 x'.2)).run (fun x => F x.1 x.2) = true) = cprob (MP c) (fun F => (next y).run (fun x => F x.1 x.2) = true) :=
        cprob_congr fun F hF => by rw [hF _ hp]
      rw [e1, e2]
      refine (ih y q used' (hn y) hB' c h1 (fun i => (h2 i).trans (hmono i)) h3 hF).trans (div_le_div_of_nonneg_right ?_ (by positivity))
      rw [hsum]
      push_cast
      linarith
    · -- a new question
      let Z : Finset α := ((c.filter fun p => p.1.1 = x.1).map Prod.snd).toFinset
      let Y : Finset α := Finset.univ \ Z
      have hZ : Z.card ≤ used x.1 := by
        refine le_trans (List.toFinset_card_le _) ?_
        rw [List.length_map]
        exact h2 x.1
      have hinj : ∀ π ∈ MP c, π x.1 x.2 ∉ Z := by
        intro π hπ hz
        obtain ⟨⟨x', y⟩, hp, hy⟩ := List.mem_map.mp (List.mem_toFinset.mp hz)
        obtain ⟨hp, hi⟩ := List.mem_filter.mp hp
        have hi : x'.1 = x.1 := by simpa using hi
        have hy : y = π x.1 x.2 := hy
        have h4 : π x'.1 x'.2 = y := hπ _ hp
        rw [hi] at h4
        exact hx (List.mem_map.mpr ⟨_, hp, Prod.ext hi ((π x.1).injective (h4.trans hy))⟩)
      have ne : ∀ p ∈ c, p.1 ≠ x := fun p hp e => hx (List.mem_map.mpr ⟨p, hp, e⟩)
      -- changing one value of a family of functions
      let put : (ι → α → α) → α → (ι → α → α) := fun F y => Function.update F x.1 (Function.update (F x.1) x.2 y)
      have put_at : ∀ F y, put F y x.1 x.2 = y := by intro F y; simp [put]
      have put_ne : ∀ F y (z : ι × α), z ≠ x → put F y z.1 z.2 = F z.1 z.2 := by
        intro F y z hz
        show Function.update F x.1 (Function.update (F x.1) x.2 y) z.1 z.2 = _
        by_cases h1 : z.1 = x.1
        · rw [h1, Function.update_self, Function.update_of_ne]
          exact fun h2 => hz (Prod.ext h1 h2)
        · rw [Function.update_of_ne h1]
      have A := cprob_avg (MF c) (fun F => F x.1 x.2) Finset.univ hF (fun _ _ => Finset.mem_univ _) (by
        intro y _ y' _
        refine Set.ncard_congr (fun F _ => put F y') ?_ ?_ ?_
        · rintro F ⟨hF, -⟩
          exact ⟨fun p hp => (put_ne F y' p.1 (ne p hp)).trans (hF p hp), put_at F y'⟩
        · rintro F F' ⟨-, h1⟩ ⟨-, h2⟩ e
          funext i z
          by_cases hz : (i, z) = x
          · subst hz; exact h1.trans h2.symm
          · have := congrFun (congrFun e i) z
            rwa [show put F y' i z = F i z from put_ne F y' (i, z) hz, show put F' y' i z = F' i z from put_ne F' y' (i, z) hz] at this
        · rintro F ⟨hF, hx'⟩
          have hx' : F x.1 x.2 = y' := hx'
          refine ⟨put F y, ⟨fun p hp => (put_ne F y p.1 (ne p hp)).trans (hF p hp), put_at F y⟩, ?_⟩
          funext i z
          by_cases hz : (i, z) = x
          · subst hz; rw [← hx']; exact put_at _ _
          · exact (put_ne _ _ (i, z) hz).trans (put_ne _ _ (i, z) hz)) (fun F => (next (F x.1 x.2)).run (fun x => F x.1 x.2) = true)
      have Bv := cprob_avg (MP c) (fun π => π x.1 x.2) Y h3 (fun π hπ => by
          rw [Finset.mem_sdiff]; exact ⟨Finset.mem_univ _, hinj π hπ⟩) (by
        intro y hy y' hy'
        have ny : ∀ p ∈ c, p.1.1 = x.1 → p.2 ≠ y ∧ p.2 ≠ y' := by
          intro p hp hi
          rw [Finset.mem_sdiff] at hy hy'
          refine ⟨fun e => hy.2 ?_, fun e => hy'.2 ?_⟩ <;>
            exact List.mem_toFinset.mpr (List.mem_map.mpr ⟨p, List.mem_filter.mpr ⟨hp, by simpa using hi⟩, e⟩)
        let sw : (ι → Equiv.Perm α) → (ι → Equiv.Perm α) := fun π => Function.update π x.1 ((π x.1).trans (Equiv.swap y y'))
        have sw_at : ∀ π, sw π x.1 = (π x.1).trans (Equiv.swap y y') := fun π => Function.update_self _ _ _
        have sw_sw : ∀ π, sw (sw π) = π := by
          intro π
          funext i
          by_cases hi : i = x.1
          · subst hi
            rw [sw_at, sw_at]
            ext z
            simp
          · rw [show sw (sw π) i = sw π i from Function.update_of_ne hi _ _, show sw π i = π i from Function.update_of_ne hi _ _]
        have key : ∀ π ∈ MP c, sw π ∈ MP c := by
          intro π hπ p hp
          by_cases hi : p.1.1 = x.1
          · rw [hi, sw_at, Equiv.trans_apply, ← hi, hπ p hp, Equiv.swap_apply_of_ne_of_ne (ny p hp hi).1 (ny p hp hi).2]
          · rw [show sw π p.1.1 = π p.1.1 from Function.update_of_ne hi _ _]
            exact hπ p hp
        refine Set.ncard_congr (fun π _ => sw π) ?_ ?_ ?_
        · rintro π ⟨hπ, e⟩
          have e : π x.1 x.2 = y := e
          exact ⟨key π hπ, by show sw π x.1 x.2 = y'; rw [sw_at, Equiv.trans_apply, e, Equiv.swap_apply_left]⟩
        · intro π π' _ _ e
          have := congrArg sw e
          rwa [sw_sw, sw_sw] at this
        · rintro π ⟨hπ, e⟩
          have e : π x.1 x.2 = y' := e
          exact ⟨sw π, ⟨key π hπ, by show sw π x.1 x.2 = y; rw [sw_at, Equiv.trans_apply, e, Equiv.swap_apply_right]⟩, sw_sw π⟩)
        (fun π => (next (π x.1 x.2)).run (fun x => π x.1 x.2) = true)
      have hYpos : 0 < Y.card := by
        obtain ⟨π, hπ⟩ := h3
        exact Finset.card_pos.mpr ⟨π x.1 x.2, by rw [Finset.mem_sdiff]; exact ⟨Finset.mem_univ _, hinj π hπ⟩⟩
      have hcard : Nat.card α = Z.card + Y.card := by
        rw [Nat.card_eq_fintype_card, ← Finset.card_univ, ← Finset.card_sdiff_add_card_eq_card (Finset.subset_univ Z)]
        exact Nat.add_comm _ _
      rw [A.1, Bv.1, Finset.card_univ, ← Nat.card_eq_fintype_card, hcard]
      have ha : ∀ y, cprob {F ∈ MF c | F x.1 x.2 = y} (fun F => (next (F x.1 x.2)).run (fun x => F x.1 x.2) = true) =
          cprob (MF ((x, y) :: c)) (fun F => (next y).run (fun x => F x.1 x.2) = true) := by
        intro y
        rw [MF_cons]
        exact cprob_congr fun F hF => by rw [hF.2]
      have hb : ∀ y, cprob {π ∈ MP c | π x.1 x.2 = y} (fun π => (next (π x.1 x.2)).run (fun x => π x.1 x.2) = true) =
          cprob (MP ((x, y) :: c)) (fun π => (next y).run (fun x => π x.1 x.2) = true) := by
        intro y
        rw [MP_cons]
        exact cprob_congr fun F hF => by rw [hF.2]
      refine (arith Z.card Y.card Z Y rfl rfl hYpos Finset.disjoint_sdiff (by
        rw [Finset.union_sdiff_of_subset (Finset.subset_univ _)]) _ _ (fun y => cprob_nonneg _ _) (fun y => cprob_le_one _ _)
        ((q * (B - 1) / 2 + ∑ i, saved B (used' i)) / Nat.card α) ?_).trans ?_
      · intro y hy
        rw [ha, hb]
        refine ih y q used' (hn y) hB' ((x, y) :: c) (by rw [List.map_cons, List.nodup_cons]; exact ⟨hx, h1⟩) (fun i => ?_)
          (by rw [MP_cons]; exact Bv.2 y hy) (by rw [MF_cons]; exact A.2 y (Finset.mem_univ _))
        rw [List.filter_cons]
        by_cases hi : x.1 = i
        · subst hi
          rw [if_pos (by simp), List.length_cons, hu', Function.update_self]
          have := h2 x.1
          omega
        · rw [if_neg (by simpa using hi), hu', Function.update_of_ne (Ne.symm hi)]
          exact h2 i
      · rw [hcard, ← add_div]
        refine div_le_div_of_nonneg_right ?_ (by positivity)
        rw [hsum]
        have : (Z.card : ℚ) ≤ used x.1 := by exact_mod_cast hZ
        push_cast
        linarith

open Game in
/-- The switching lemma for many users: `q` questions altogether, at most `B` for each user. -/
theorem multi_switch [Fintype ι] [Finite α] (B : Nat) (hB1 : 1 ≤ B) (D : Distinguisher (ι × α) α) (q : Nat) (hD : Budget B D q (fun _ => 0)) :
    |prob (fun F : ι → α → α => D.run (fun x => F x.1 x.2) = true) - prob (fun π : ι → Equiv.Perm α => D.run (fun x => π x.1 x.2) = true)| ≤
      (q * (B - 1) / 2 : ℚ) / Nat.card α := by
  have := multi_cond B D q (fun _ => 0) hD (by simp) hB1 [] (by simp) (by simp) ⟨fun _ => 1, by simp [MP]⟩
  have e1 : MF ([] : List ((ι × α) × α)) = Set.univ := by ext; simp [MF]
  have e2 : MP ([] : List ((ι × α) × α)) = Set.univ := by ext; simp [MP]
  unfold cprob at this
  rw [e1, e2] at this
  simpa [prob, Set.ncard_univ, saved] using this

end CryptoPure.Switch
