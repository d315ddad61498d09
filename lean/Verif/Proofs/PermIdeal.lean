import Verif.Spec.PermGame
import Verif.Proofs.CipherIdeal
import Verif.Proofs.ExtractIdeal

/-! # A keyed function made from a public random permutation

`C` are the points that are permuted, `I` the arguments of the keyed function, `Z` its values and `K` its keys: under `k` the value at `i` is
`mask x (P x)`, where `x = pt k i`. -/

namespace CryptoPure.PermGame.Tester

variable {I Z C : Type}

/-- What is learnt about the permutation. -/
def pairs (P : Equiv.Perm C) (F : I → Z) : Tester I Z C → List (C × C)
  | .verdict _ => []
  | .permute x next => (x, P x) :: (next (P x)).pairs P F
  | .unpermute y next => (P.symm y, y) :: (next (P.symm y)).pairs P F
  | .ask i next => (next (F i)).pairs P F

/-- The arguments at which the keyed function is evaluated. -/
def blks (P : Equiv.Perm C) (F : I → Z) : Tester I Z C → List I
  | .verdict _ => []
  | .permute x next => (next (P x)).blks P F
  | .unpermute y next => (next (P.symm y)).blks P F
  | .ask i next => i :: (next (F i)).blks P F

theorem Within.lengths {t : Tester I Z C} {p s : Nat} (h : t.Within p s) (P : Equiv.Perm C) (F : I → Z) :
    (t.pairs P F).length ≤ p ∧ (t.blks P F).length ≤ s := by
  induction t generalizing p s with
  | verdict b => simp [pairs, blks]
  | permute x next ih =>
    obtain ⟨p, rfl, h⟩ := h
    obtain ⟨h1, h2⟩ := ih _ (h (P x))
    exact ⟨Nat.succ_le_succ h1, h2⟩
  | unpermute x next ih =>
    obtain ⟨p, rfl, h⟩ := h
    obtain ⟨h1, h2⟩ := ih _ (h (P.symm x))
    exact ⟨Nat.succ_le_succ h1, h2⟩
  | ask i next ih =>
    obtain ⟨s, rfl, h⟩ := h
    obtain ⟨h1, h2⟩ := ih _ (h (F i))
    exact ⟨h1, Nat.succ_le_succ h2⟩

theorem Within.mono {t : Tester I Z C} {p s p' s' : Nat} (h : t.Within p s) (hp : p ≤ p') (hs : s ≤ s') : t.Within p' s' := by
  induction t generalizing p s p' s' with
  | verdict b => trivial
  | permute x next ih =>
    obtain ⟨p, rfl, h⟩ := h
    exact ⟨p' - 1, by omega, fun y => ih y (h y) (by omega) hs⟩
  | unpermute x next ih =>
    obtain ⟨p, rfl, h⟩ := h
    exact ⟨p' - 1, by omega, fun y => ih y (h y) (by omega) hs⟩
  | ask i next ih =>
    obtain ⟨s, rfl, h⟩ := h
    exact ⟨s' - 1, by omega, fun y => ih y (h y) hp (by omega)⟩

end CryptoPure.PermGame.Tester

namespace CryptoPure.Proofs.PermIdeal
open Game Switch HmacIdeal PermGame

variable {K I Z C : Type}



variable (pt : K → I → C) (mask : C → C ≃ Z)

/-- The keyed function. -/
def real (k : K) (P : Equiv.Perm C) (i : I) : Z := mask (pt k i) (P (pt k i))

/-- The value of the permutation that a value of the keyed function tells about. -/
def inner (k : K) (F : I → Z) (i : I) : C := (mask (pt k i)).symm (F i)

/-- The questions about the permutation and those about the keyed function have nothing to do with each other. -/
def Good (k : K) (c : List (C × C)) (d : List I) (F : I → Z) : Prop :=
  (∀ q ∈ c, ∀ i ∈ d, q.1 ≠ pt k i ∧ q.2 ≠ inner pt mask k F i) ∧ ∀ i ∈ d, ∀ j ∈ d, inner pt mask k F i = inner pt mask k F j → i = j

variable {pt mask}

theorem Good.mono {k : K} {c c' : List (C × C)} {d d' : List I} {F : I → Z} (h : Good pt mask k c d F) (hc : c' ⊆ c) (hd : d' ⊆ d) :
    Good pt mask k c' d' F :=
  ⟨fun q hq i hi => h.1 q (hc hq) i (hd hi), fun i hi j hj => h.2 i (hd hi) j (hd hj)⟩

variable (pt mask)

/-- What values of the keyed function tell about the permutation. -/
def D (k : K) (d : List (I × Z)) : List (C × C) := d.map fun e => (pt k e.1, (mask (pt k e.1)).symm e.2)

/-- Permutations and functions with prescribed values. -/
def Om (c : List (C × C)) (d : List (I × Z)) : Set (Equiv.Perm C × (I → Z)) := {ω | ω.1 ∈ SP c ∧ ∀ e ∈ d, ω.2 e.1 = e.2}

/-! ## Counting -/

theorem fibres {β γ : Type} [Finite β] [DecidableEq γ] (S : Set β) (f : β → γ) (σ : γ → γ → β → β) (y y' : γ)
    (h : ∀ e ∈ S, σ y y' e ∈ S ∧ f (σ y y' e) = Equiv.swap y y' (f e) ∧ σ y y' (σ y y' e) = e) :
    {b ∈ S | f b = y}.ncard = {b ∈ S | f b = y'}.ncard := by
  refine Set.ncard_congr (fun e _ => σ y y' e) ?_ ?_ ?_
  · rintro e ⟨he, h1⟩
    obtain ⟨a, b, -⟩ := h e he
    exact ⟨a, by show f _ = _; rw [b, show f e = y from h1, Equiv.swap_apply_left]⟩
  · rintro e e' ⟨he, -⟩ ⟨he', -⟩ h1
    have h1 : σ y y' e = σ y y' e' := h1
    rw [← (h e he).2.2, h1, (h e' he').2.2]
  · rintro e ⟨he, h1⟩
    obtain ⟨a, b, c⟩ := h e he
    exact ⟨σ y y' e, ⟨a, by show f _ = _; rw [b, show f e = y' from h1, Equiv.swap_apply_right]⟩, c⟩

theorem compare {β β' γ : Type} [Finite β] [Finite β'] (S : Set β) (S' : Set β') (W : β → Prop) (W' : β' → Prop) (f : β → γ) (f' : β' → γ)
    (Y Y' : Finset γ) (hY : Y' ⊆ Y) (hS : S.Nonempty) (hS' : S'.Nonempty) (mem : ∀ b ∈ S, f b ∈ Y) (mem' : ∀ b ∈ S', f' b ∈ Y')
    (heq : ∀ y ∈ Y, ∀ y' ∈ Y, {b ∈ S | f b = y}.ncard = {b ∈ S | f b = y'}.ncard)
    (heq' : ∀ y ∈ Y', ∀ y' ∈ Y', {b ∈ S' | f' b = y}.ncard = {b ∈ S' | f' b = y'}.ncard)
    (hzero : ∀ y ∈ Y, y ∉ Y' → ∀ b ∈ S, f b = y → ¬ W b)
    (hle : ∀ y ∈ Y', {b ∈ S' | f' b = y}.Nonempty → cprob {b ∈ S | f b = y} W ≤ cprob {b ∈ S' | f' b = y} W') : cprob S W ≤ cprob S' W' := by
  classical
  have A := cprob_avg S f Y hS mem heq W
  have A' := cprob_avg S' f' Y' hS' mem' heq' W'
  rw [A.1, A'.1]
  have h0 : ∑ y ∈ Y, cprob {b ∈ S | f b = y} W = ∑ y ∈ Y', cprob {b ∈ S | f b = y} W := by
    refine (Finset.sum_subset hY fun y hy hy' => ?_).symm
    exact CipherIdeal.cprob_false _ fun b hb => hzero y hy hy' b hb.1 hb.2
  have h1 : ∑ y ∈ Y', cprob {b ∈ S | f b = y} W ≤ ∑ y ∈ Y', cprob {b ∈ S' | f' b = y} W' := Finset.sum_le_sum fun y hy => hle y hy (A'.2 y hy)
  have hpos : 0 < Y'.card := by
    obtain ⟨b, hb⟩ := hS'
    exact Finset.card_pos.mpr ⟨_, mem' b hb⟩
  have hpos' : (0 : ℚ) < Y'.card := by exact_mod_cast hpos
  have hcard : (Y'.card : ℚ) ≤ Y.card := by exact_mod_cast Finset.card_le_card hY
  have hn : 0 ≤ ∑ y ∈ Y', cprob {b ∈ S' | f' b = y} W' := Finset.sum_nonneg fun y _ => cprob_nonneg _ _
  rw [h0]
  exact (div_le_div_of_nonneg_right h1 (by positivity)).trans (div_le_div_of_nonneg_left hn hpos' hcard)

theorem SP_mem {c c' : List (C × C)} (h : ∀ q, q ∈ c ↔ q ∈ c') : SP c = SP c' := by
  ext P
  simp only [SP, Set.mem_ofPred_eq, h]

theorem SP_append {c d : List (C × C)} {P : Equiv.Perm C} (h : P ∈ SP (c ++ d)) : P ∈ SP c ∧ P ∈ SP d :=
  ⟨fun q hq => h q (by simp [hq]), fun q hq => h q (by simp [hq])⟩

/-- Values after the permutation can be exchanged. -/
theorem swap_after [DecidableEq C] {c : List (C × C)} {x : C} {y y' : C} (hy : y ∉ c.map Prod.snd) (hy' : y' ∉ c.map Prod.snd) {P : Equiv.Perm C} (hP : P ∈ SP c) :
    P.trans (Equiv.swap y y') ∈ SP c ∧ (P.trans (Equiv.swap y y')) x = Equiv.swap y y' (P x) ∧
      (P.trans (Equiv.swap y y')).trans (Equiv.swap y y') = P := by
  refine ⟨fun q hq => ?_, rfl, by ext z; simp⟩
  rw [Equiv.trans_apply, hP q hq, Equiv.swap_apply_of_ne_of_ne]
  · exact fun e => hy (List.mem_map.mpr ⟨q, hq, e⟩)
  · exact fun e => hy' (List.mem_map.mpr ⟨q, hq, e⟩)

/-- Values before it. -/
theorem swap_before [DecidableEq C] {c : List (C × C)} {x : C} {y y' : C} (hy : y ∉ c.map Prod.fst) (hy' : y' ∉ c.map Prod.fst) {P : Equiv.Perm C} (hP : P ∈ SP c) :
    (Equiv.swap y y').trans P ∈ SP c ∧ ((Equiv.swap y y').trans P).symm x = Equiv.swap y y' (P.symm x) ∧
      (Equiv.swap y y').trans ((Equiv.swap y y').trans P) = P := by
  refine ⟨fun q hq => ?_, by simp [Equiv.symm_trans_apply], by ext z; simp⟩
  rw [Equiv.trans_apply, Equiv.swap_apply_of_ne_of_ne]
  · exact hP q hq
  · exact fun e => hy (List.mem_map.mpr ⟨q, hq, e⟩)
  · exact fun e => hy' (List.mem_map.mpr ⟨q, hq, e⟩)

set_option maxHeartbeats 1000000 in
/-- Every outcome without accidents is at least as likely in the real world. -/
theorem lower [Finite I] [Finite Z] [Finite C] (k : K) (hk : Function.Injective (pt k)) (v : Bool) (t : Tester I Z C) (c : List (C × C)) (d : List (I × Z))
    (hd : (Om c d).Nonempty) (hne : (SP (c ++ D pt mask k d)).Nonempty) :
    cprob (Om c d) (fun ω => t.run ω.1 ω.2 = v ∧ Good pt mask k (c ++ t.pairs ω.1 ω.2) (d.map Prod.fst ++ t.blks ω.1 ω.2) ω.2) ≤
    cprob (SP (c ++ D pt mask k d)) (fun P => t.run P (real pt mask k P) = v) := by
  classical
  have : Fintype C := Fintype.ofFinite C
  induction t generalizing c d with
  | verdict b =>
    by_cases hb : b = v
    · refine (cprob_le_one _ _).trans ?_
      unfold cprob
      have : {P | P ∈ SP (c ++ D pt mask k d) ∧ Tester.run P (real pt mask k P) (Tester.verdict b) = v} = SP (c ++ D pt mask k d) := by
        ext P
        simp only [Set.mem_ofPred_eq, and_iff_left_iff_imp]
        exact fun _ => hb
      rw [this, div_self]
      exact_mod_cast ((Set.ncard_pos).mpr hne).ne'
    · rw [CipherIdeal.cprob_false _ (fun ω _ h => hb h.1)]
      exact cprob_nonneg _ _
  | permute x next ih =>
    by_cases hx : ∃ q ∈ c, q.1 = x
    · obtain ⟨⟨x', y⟩, hq, rfl⟩ := hx
      have e1 : ∀ ω ∈ Om c d, ω.1 x' = y := fun ω hω => hω.1 _ hq
      have e2 : ∀ P ∈ SP (c ++ D pt mask k d), P x' = y := fun P hP => (SP_append hP).1 _ hq
      refine le_trans (cprob_mono _ fun ω hω h => ?_) (le_trans (ih y c d hd hne) (le_of_eq (cprob_congr fun P hP => ?_)))
      · simp only [Tester.run, Tester.pairs, Tester.blks, e1 ω hω] at h
        refine ⟨h.1, h.2.mono ?_ (List.Subset.refl _)⟩
        intro q hq
        simp only [List.mem_append, List.mem_cons] at hq ⊢
        tauto
      · simp only [Tester.run, e2 P hP]
    by_cases hxd : ∃ e ∈ d, pt k e.1 = x
    · rw [CipherIdeal.cprob_false]
      · exact cprob_nonneg _ _
      · rintro ω hω ⟨-, hg⟩
        obtain ⟨e, he, rfl⟩ := hxd
        refine (hg.1 (pt k e.1, ω.1 (pt k e.1)) ?_ e.1 ?_).1 rfl
        · simp [Tester.pairs]
        · exact List.mem_append_left _ (List.mem_map_of_mem he)
    let Y : Finset C := Finset.univ \ (c.map Prod.snd).toFinset
    let Y' : Finset C := Finset.univ \ ((c ++ D pt mask k d).map Prod.snd).toFinset
    have hY : ∀ y, y ∈ Y ↔ y ∉ c.map Prod.snd := by intro y; simp only [Y, Finset.mem_sdiff, Finset.mem_univ, true_and, List.mem_toFinset]
    have hY' : ∀ y, y ∈ Y' ↔ y ∉ (c ++ D pt mask k d).map Prod.snd := by
      intro y; simp only [Y', Finset.mem_sdiff, Finset.mem_univ, true_and, List.mem_toFinset]
    refine compare _ _ _ _ (fun ω => ω.1 x) (fun P => P x) Y Y' ?_ hd hne ?_ ?_ ?_ ?_ ?_ ?_
    · intro y hy
      rw [hY'] at hy
      rw [hY]
      exact fun h => hy (by rw [List.map_append]; exact List.mem_append_left _ h)
    · intro ω hω
      rw [hY]
      intro h
      obtain ⟨q, hq, e⟩ := List.mem_map.mp h
      exact hx ⟨q, hq, ω.1.injective ((hω.1 q hq).trans e)⟩
    · intro P hP
      rw [hY']
      intro h
      obtain ⟨q, hq, e⟩ := List.mem_map.mp h
      have hqx := P.injective ((hP q hq).trans e)
      rcases List.mem_append.mp hq with h | h
      · exact hx ⟨q, h, hqx⟩
      · obtain ⟨u, hu, rfl⟩ := List.mem_map.mp h
        exact hxd ⟨u, hu, hqx⟩
    · intro y hy y' hy'
      rw [hY] at hy hy'
      refine fibres _ _ (fun y y' ω => (ω.1.trans (Equiv.swap y y'), ω.2)) y y' ?_
      rintro ω hω
      obtain ⟨a, b, e⟩ := swap_after (x := x) hy hy' hω.1
      exact ⟨⟨a, hω.2⟩, b, Prod.ext e rfl⟩
    · intro y hy y' hy'
      rw [hY'] at hy hy'
      exact fibres _ _ (fun y y' P => P.trans (Equiv.swap y y')) y y' fun P hP => swap_after hy hy' hP
    · rintro y hy hy' ω hω e ⟨-, hg⟩
      rw [hY] at hy
      rw [hY', not_not] at hy'
      have e : ω.1 x = y := e
      rw [List.map_append, List.mem_append] at hy'
      obtain ⟨q, hq, rfl⟩ := List.mem_map.mp (hy'.resolve_left hy)
      obtain ⟨u, hu, rfl⟩ := List.mem_map.mp hq
      refine (hg.1 (x, ω.1 x) (by simp [Tester.pairs]) u.1 (List.mem_append_left _ (List.mem_map_of_mem hu))).2 ?_
      show ω.1 x = inner pt mask k ω.2 u.1
      rw [e]
      unfold inner
      rw [hω.2 u hu]
    · intro y hy hn
      have s1 : {ω ∈ Om c d | ω.1 x = y} = Om ((x, y) :: c) d := by
        ext ω
        simp only [Om, SP_cons, Set.mem_ofPred_eq]
        tauto
      have s2 : {P ∈ SP (c ++ D pt mask k d) | P x = y} = SP ((x, y) :: c ++ D pt mask k d) := by
        rw [List.cons_append, SP_cons]
      show cprob {ω ∈ Om c d | ω.1 x = y} _ ≤ cprob {P ∈ SP (c ++ D pt mask k d) | P x = y} _
      have hn : ({P ∈ SP (c ++ D pt mask k d) | P x = y}).Nonempty := hn
      rw [s2] at hn
      have hd' : (Om ((x, y) :: c) d).Nonempty := by
        obtain ⟨P, hP⟩ := hn
        obtain ⟨ω, hω⟩ := hd
        exact ⟨(P, ω.2), (SP_append hP).1, hω.2⟩
      rw [s1, s2]
      refine le_trans (cprob_mono _ fun ω hω h => ?_) (le_trans (ih y _ _ hd' hn) (le_of_eq (cprob_congr fun P hP => ?_)))
      · have e : ω.1 x = y := hω.1 (x, y) (by simp)
        simp only [Tester.run, Tester.pairs, Tester.blks, e] at h
        refine ⟨h.1, h.2.mono ?_ (List.Subset.refl _)⟩
        intro q hq
        simp only [List.mem_append, List.mem_cons] at hq ⊢
        tauto
      · have e : P x = y := hP (x, y) (by simp)
        simp only [Tester.run, e]
  | unpermute x next ih =>
    by_cases hx : ∃ q ∈ c, q.2 = x
    · obtain ⟨⟨y, x'⟩, hq, rfl⟩ := hx
      have e1 : ∀ ω ∈ Om c d, ω.1.symm x' = y := fun ω hω => by rw [Equiv.symm_apply_eq]; exact (hω.1 _ hq).symm
      have e2 : ∀ P ∈ SP (c ++ D pt mask k d), P.symm x' = y := fun P hP => by rw [Equiv.symm_apply_eq]; exact ((SP_append hP).1 _ hq).symm
      refine le_trans (cprob_mono _ fun ω hω h => ?_) (le_trans (ih y c d hd hne) (le_of_eq (cprob_congr fun P hP => ?_)))
      · simp only [Tester.run, Tester.pairs, Tester.blks, e1 ω hω] at h
        refine ⟨h.1, h.2.mono ?_ (List.Subset.refl _)⟩
        intro q hq
        simp only [List.mem_append, List.mem_cons] at hq ⊢
        tauto
      · simp only [Tester.run, e2 P hP]
    by_cases hxd : ∃ e ∈ d, (mask (pt k e.1)).symm e.2 = x
    · rw [CipherIdeal.cprob_false]
      · exact cprob_nonneg _ _
      · rintro ω hω ⟨-, hg⟩
        obtain ⟨e, he, rfl⟩ := hxd
        refine (hg.1 (ω.1.symm ((mask (pt k e.1)).symm e.2), (mask (pt k e.1)).symm e.2) ?_ e.1 ?_).2 ?_
        · simp [Tester.pairs]
        · exact List.mem_append_left _ (List.mem_map_of_mem he)
        · unfold inner
          rw [hω.2 e he]
    let Y : Finset C := Finset.univ \ (c.map Prod.fst).toFinset
    let Y' : Finset C := Finset.univ \ ((c ++ D pt mask k d).map Prod.fst).toFinset
    have hY : ∀ y, y ∈ Y ↔ y ∉ c.map Prod.fst := by intro y; simp only [Y, Finset.mem_sdiff, Finset.mem_univ, true_and, List.mem_toFinset]
    have hY' : ∀ y, y ∈ Y' ↔ y ∉ (c ++ D pt mask k d).map Prod.fst := by
      intro y; simp only [Y', Finset.mem_sdiff, Finset.mem_univ, true_and, List.mem_toFinset]
    refine compare _ _ _ _ (fun ω => ω.1.symm x) (fun P => P.symm x) Y Y' ?_ hd hne ?_ ?_ ?_ ?_ ?_ ?_
    · intro y hy
      rw [hY'] at hy
      rw [hY]
      exact fun h => hy (by rw [List.map_append]; exact List.mem_append_left _ h)
    · intro ω hω
      rw [hY]
      intro h
      obtain ⟨q, hq, e⟩ := List.mem_map.mp h
      refine hx ⟨q, hq, ?_⟩
      rw [← hω.1 q hq, e, Equiv.apply_symm_apply]
    · intro P hP
      rw [hY']
      intro h
      obtain ⟨q, hq, e⟩ := List.mem_map.mp h
      have hqx : q.2 = x := by rw [← hP q hq, e, Equiv.apply_symm_apply]
      rcases List.mem_append.mp hq with h | h
      · exact hx ⟨q, h, hqx⟩
      · obtain ⟨u, hu, rfl⟩ := List.mem_map.mp h
        exact hxd ⟨u, hu, hqx⟩
    · intro y hy y' hy'
      rw [hY] at hy hy'
      refine fibres _ _ (fun y y' ω => ((Equiv.swap y y').trans ω.1, ω.2)) y y' ?_
      rintro ω hω
      obtain ⟨a, b, e⟩ := swap_before (x := x) hy hy' hω.1
      exact ⟨⟨a, hω.2⟩, b, Prod.ext e rfl⟩
    · intro y hy y' hy'
      rw [hY'] at hy hy'
      exact fibres _ _ (fun y y' P => (Equiv.swap y y').trans P) y y' fun P hP => swap_before hy hy' hP
    · rintro y hy hy' ω hω e ⟨-, hg⟩
      rw [hY] at hy
      rw [hY', not_not] at hy'
      have e : ω.1.symm x = y := e
      rw [List.map_append, List.mem_append] at hy'
      obtain ⟨q, hq, rfl⟩ := List.mem_map.mp (hy'.resolve_left hy)
      obtain ⟨u, hu, rfl⟩ := List.mem_map.mp hq
      exact (hg.1 (ω.1.symm x, x) (by simp [Tester.pairs]) u.1 (List.mem_append_left _ (List.mem_map_of_mem hu))).1 e
    · intro y hy hn
      have s1 : {ω ∈ Om c d | ω.1.symm x = y} = Om ((y, x) :: c) d := by
        ext ω
        simp only [Om, SP_cons, Set.mem_ofPred_eq, Equiv.symm_apply_eq]
        rw [eq_comm (a := x)]
        tauto
      have s2 : {P ∈ SP (c ++ D pt mask k d) | P.symm x = y} = SP ((y, x) :: c ++ D pt mask k d) := by
        rw [List.cons_append, SP_cons]
        ext P
        simp only [Set.mem_ofPred_eq, Equiv.symm_apply_eq]
        rw [eq_comm (a := x)]
      show cprob {ω ∈ Om c d | ω.1.symm x = y} _ ≤ cprob {P ∈ SP (c ++ D pt mask k d) | P.symm x = y} _
      have hn : ({P ∈ SP (c ++ D pt mask k d) | P.symm x = y}).Nonempty := hn
      rw [s2] at hn
      have hd' : (Om ((y, x) :: c) d).Nonempty := by
        obtain ⟨P, hP⟩ := hn
        obtain ⟨ω, hω⟩ := hd
        exact ⟨(P, ω.2), (SP_append hP).1, hω.2⟩
      rw [s1, s2]
      refine le_trans (cprob_mono _ fun ω hω h => ?_) (le_trans (ih y _ _ hd' hn) (le_of_eq (cprob_congr fun P hP => ?_)))
      · have e : ω.1.symm x = y := by rw [Equiv.symm_apply_eq]; exact (hω.1 (y, x) (by simp)).symm
        simp only [Tester.run, Tester.pairs, Tester.blks, e] at h
        refine ⟨h.1, h.2.mono ?_ (List.Subset.refl _)⟩
        intro q hq
        simp only [List.mem_append, List.mem_cons] at hq ⊢
        tauto
      · have e : P.symm x = y := by rw [Equiv.symm_apply_eq]; exact (hP (y, x) (by simp)).symm
        simp only [Tester.run, e]
  | ask i next ih =>
    by_cases hi : ∃ e ∈ d, e.1 = i
    · obtain ⟨⟨i', z⟩, he, rfl⟩ := hi
      have e1 : ∀ ω ∈ Om c d, ω.2 i' = z := fun ω hω => hω.2 _ he
      have e2 : ∀ P ∈ SP (c ++ D pt mask k d), real pt mask k P i' = z := fun P hP => by
        have := (SP_append hP).2 _ (List.mem_map_of_mem he)
        simp only at this
        unfold real
        rw [this, Equiv.apply_symm_apply]
      refine le_trans (cprob_mono _ fun ω hω h => ?_) (le_trans (ih z c d hd hne) (le_of_eq (cprob_congr fun P hP => ?_)))
      · simp only [Tester.run, Tester.pairs, Tester.blks, e1 ω hω] at h
        refine ⟨h.1, h.2.mono (List.Subset.refl _) ?_⟩
        intro q hq
        simp only [List.mem_append, List.mem_cons] at hq ⊢
        tauto
      · simp only [Tester.run, e2 P hP]
    by_cases hx : ∃ q ∈ c, q.1 = pt k i
    · rw [CipherIdeal.cprob_false]
      · exact cprob_nonneg _ _
      · rintro ω hω ⟨-, hg⟩
        obtain ⟨q, hq, e⟩ := hx
        exact (hg.1 q (List.mem_append_left _ hq) i (by simp [Tester.blks])).1 e
    have hxd : ¬ ∃ e ∈ d, pt k e.1 = pt k i := fun ⟨e, he, h⟩ => hi ⟨e, he, hk h⟩
    let Y' : Finset C := Finset.univ \ ((c ++ D pt mask k d).map Prod.snd).toFinset
    have hY' : ∀ y, y ∈ Y' ↔ y ∉ (c ++ D pt mask k d).map Prod.snd := by
      intro y; simp only [Y', Finset.mem_sdiff, Finset.mem_univ, true_and, List.mem_toFinset]
    refine compare _ _ _ _ (fun ω => inner pt mask k ω.2 i) (fun P => P (pt k i)) Finset.univ Y' (Finset.subset_univ _) hd hne
      (fun _ _ => Finset.mem_univ _) ?_ ?_ ?_ ?_ ?_
    · intro P hP
      rw [hY']
      intro h
      obtain ⟨q, hq, e⟩ := List.mem_map.mp h
      have hqx := P.injective ((hP q hq).trans e)
      rcases List.mem_append.mp hq with h | h
      · exact hx ⟨q, h, hqx⟩
      · obtain ⟨u, hu, rfl⟩ := List.mem_map.mp h
        exact hxd ⟨u, hu, hqx⟩
    · intro y _ y' _
      refine fibres _ _ (fun y y' ω => (ω.1, Function.update ω.2 i (mask (pt k i) (Equiv.swap y y' (inner pt mask k ω.2 i))))) y y' ?_
      rintro ω hω
      refine ⟨⟨hω.1, fun e he => ?_⟩, ?_, ?_⟩
      · have : e.1 ≠ i := fun h => hi ⟨e, he, h⟩
        show Function.update ω.2 i _ e.1 = e.2
        rw [Function.update_of_ne this]
        exact hω.2 e he
      · simp [inner]
      · refine Prod.ext rfl ?_
        simp [inner]
    · intro y hy y' hy'
      rw [hY'] at hy hy'
      exact fibres _ _ (fun y y' P => P.trans (Equiv.swap y y')) y y' fun P hP => swap_after hy hy' hP
    · rintro y - hy' ω hω e ⟨-, hg⟩
      rw [hY', not_not] at hy'
      have e : inner pt mask k ω.2 i = y := e
      rw [List.map_append, List.mem_append] at hy'
      rcases hy' with h | h
      · obtain ⟨q, hq, rfl⟩ := List.mem_map.mp h
        exact (hg.1 q (List.mem_append_left _ hq) i (by simp [Tester.blks])).2 e.symm
      · obtain ⟨q, hq, rfl⟩ := List.mem_map.mp h
        obtain ⟨u, hu, rfl⟩ := List.mem_map.mp hq
        refine hi ⟨u, hu, hg.2 u.1 (List.mem_append_left _ (List.mem_map_of_mem hu)) i (by simp [Tester.blks]) ?_⟩
        rw [e]
        unfold inner
        rw [hω.2 u hu]
    · intro y hy hn
      have s1 : {ω ∈ Om c d | inner pt mask k ω.2 i = y} = Om c ((i, mask (pt k i) y) :: d) := by
        ext ω
        simp only [Om, inner, List.mem_cons, forall_eq_or_imp, Set.mem_ofPred_eq, Equiv.symm_apply_eq]
        tauto
      have s2 : {P ∈ SP (c ++ D pt mask k d) | P (pt k i) = y} = SP (c ++ D pt mask k ((i, mask (pt k i) y) :: d)) := by
        rw [← SP_cons]
        refine SP_mem fun q => ?_
        simp only [D, List.map_cons, Equiv.symm_apply_apply, List.mem_cons, List.mem_append]
        tauto
      show cprob {ω ∈ Om c d | inner pt mask k ω.2 i = y} _ ≤ cprob {P ∈ SP (c ++ D pt mask k d) | P (pt k i) = y} _
      have hn : ({P ∈ SP (c ++ D pt mask k d) | P (pt k i) = y}).Nonempty := hn
      have hn0 := hn
      rw [s2] at hn
      have hd' : (Om c ((i, mask (pt k i) y) :: d)).Nonempty := by
        rw [← s1]
        obtain ⟨ω, hω⟩ := hd
        refine ⟨(ω.1, Function.update ω.2 i (mask (pt k i) y)), ⟨hω.1, fun e he => ?_⟩, by simp [inner]⟩
        have : e.1 ≠ i := fun h => hi ⟨e, he, h⟩
        show Function.update ω.2 i _ e.1 = e.2
        rw [Function.update_of_ne this]
        exact hω.2 e he
      rw [s1, s2]
      refine le_trans (cprob_mono _ fun ω hω h => ?_) (le_trans (ih (mask (pt k i) y) _ _ hd' hn) (le_of_eq (cprob_congr fun P hP => ?_)))
      · have e : ω.2 i = mask (pt k i) y := hω.2 (i, mask (pt k i) y) (by simp)
        simp only [Tester.run, Tester.pairs, Tester.blks, e] at h
        refine ⟨h.1, h.2.mono (List.Subset.refl _) ?_⟩
        intro q hq
        simp only [List.map_cons, List.mem_append, List.mem_cons] at hq ⊢
        tauto
      · rw [← s2] at hP
        have e : real pt mask k P i = mask (pt k i) y := by
          unfold real
          rw [show P (pt k i) = y from hP.2]
        simp only [Tester.run, e]

/-! ## Accidents are rare -/

/-- The evaluations of the keyed function, in terms of what they tell about the permutation. -/
def evalT (k : K) (P : Equiv.Perm C) : Tester I Z C → Eval I C
  | .verdict _ => .stop
  | .permute x next => evalT k P (next (P x))
  | .unpermute y next => evalT k P (next (P.symm y))
  | .ask i next => .ask i fun y => evalT k P (next (mask (pt k i) y))

theorem evalT_within (k : K) (P : Equiv.Perm C) (t : Tester I Z C) (p s : Nat) (h : t.Within p s) : (evalT pt mask k P t).Within s := by
  induction t generalizing p s with
  | verdict b => trivial
  | permute x next ih =>
    obtain ⟨p, rfl, h⟩ := h
    exact ih _ _ _ (h _)
  | unpermute x next ih =>
    obtain ⟨p, rfl, h⟩ := h
    exact ih _ _ _ (h _)
  | ask i next ih =>
    obtain ⟨s, rfl, h⟩ := h
    exact ⟨s, rfl, fun y => ih _ _ _ (h _)⟩

theorem evalT_args (k : K) (P : Equiv.Perm C) (G : I → C) (t : Tester I Z C) :
    (evalT pt mask k P t).args G = t.blks P (fun i => mask (pt k i) (G i)) := by
  induction t with
  | verdict b => rfl
  | permute x next ih => exact ih _
  | unpermute x next ih => exact ih _
  | ask i next ih => exact congrArg (List.cons i) (ih _)

/-- Functions to `C` are functions to `Z`. -/
def lift (k : K) : (I → C) ≃ (I → Z) where
  toFun G i := mask (pt k i) (G i)
  invFun F i := (mask (pt k i)).symm (F i)
  left_inv G := by funext i; simp
  right_inv F := by funext i; simp

theorem prob_subsingleton {α : Type} [Finite α] {P : α → Prop} (h : ∀ a b, P a → P b → a = b) : prob P ≤ 1 / Nat.card α := by
  unfold prob
  refine div_le_div_of_nonneg_right ?_ (by positivity)
  have : {a | P a}.ncard ≤ 1 := (Set.ncard_le_one (Set.toFinite _)).mpr fun a ha b hb => h a b ha hb
  exact_mod_cast this

theorem clash_le [Finite I] [Finite Z] [Finite C] [Nonempty C] (k : K) (P : Equiv.Perm C) (t : Tester I Z C) (p s : Nat) (h : t.Within p s) :
    prob (fun F : I → Z => ¬ ∀ i ∈ t.blks P F, ∀ j ∈ t.blks P F, inner pt mask k F i = inner pt mask k F j → i = j) ≤ s * s / Nat.card C := by
  classical
  rw [← prob_equiv (lift pt mask k)]
  have hb := HmacIdeal.bad_le (id : C → C) (1 / Nat.card C) (by positivity) (fun t => prob_subsingleton fun a b ha hb => ha.trans hb.symm) (evalT pt mask k P t) s
    (evalT_within pt mask k P t p s h) [] [] Set.univ (fun _ _ _ _ _ => Set.mem_univ _) s (by simp)
  rw [cprob_univ] at hb
  refine le_trans (prob_mono fun G hG => ?_) (hb.trans (le_of_eq (by ring)))
  by_contra hbad
  refine hG ?_
  obtain ⟨-, n2⟩ := Eval.not_bad _ _ _ hbad
  rw [evalT_args] at n2
  intro i hi j hj e
  refine n2 i hi j hj (by simp) (by simp) ?_
  simpa [inner, lift] using e

theorem meet_le [Finite K] (hk : ∀ k i k' i', pt k i = pt k' i' → k = k') (hm : ∀ x x' y, mask x y = mask x' y → x = x')
    (c : List (C × C)) (d : List I) (F : I → Z) (p s : Nat) (hp : c.length ≤ p) (hs : d.length ≤ s) :
    prob (fun k : K => ¬ ∀ q ∈ c, ∀ i ∈ d, q.1 ≠ pt k i ∧ q.2 ≠ inner pt mask k F i) ≤ (p + p * s) / Nat.card K := by
  have h1 := ExtractIdeal.prob_exists_list (fun (q : C × C) (k : K) => ∃ i, q.1 = pt k i) (1 / Nat.card K) c fun q _ =>
    prob_subsingleton fun k k' ⟨i, h⟩ ⟨i', h'⟩ => hk k i k' i' (h.symm.trans h')
  have h2 := ExtractIdeal.prob_exists_list (fun (q : (C × C) × I) (k : K) => q.1.2 = inner pt mask k F q.2) (1 / Nat.card K) (c ×ˢ d) fun q _ =>
    prob_subsingleton fun k k' h h' => by
      unfold inner at h h'
      rw [Equiv.eq_symm_apply] at h h'
      exact hk k q.2 k' q.2 (hm _ _ _ (h.trans h'.symm))
  refine le_trans (prob_mono fun k h => ?_) (le_trans (prob_or _ _) (le_trans (add_le_add h1 h2) ?_))
  · push Not at h
    obtain ⟨q, hq, i, hi, h⟩ := h
    by_cases e : q.1 = pt k i
    · exact Or.inl ⟨q, hq, i, e⟩
    · exact Or.inr ⟨(q, i), List.mem_product.mpr ⟨hq, hi⟩, h e⟩
  · rw [List.length_product, ← add_mul, mul_one_div]
    refine div_le_div_of_nonneg_right ?_ (by positivity)
    have a1 : (c.length : ℚ) ≤ p := by exact_mod_cast hp
    have a2 : ((c.length * d.length : Nat) : ℚ) ≤ p * s := by exact_mod_cast Nat.mul_le_mul hp hs
    linarith

theorem accident [Finite K] [Finite I] [Finite Z] [Finite C] [Nonempty K] [Nonempty C] [Nonempty Z] (hk : ∀ k i k' i', pt k i = pt k' i' → k = k')
    (hm : ∀ x x' y, mask x y = mask x' y → x = x') (t : Tester I Z C) (p s : Nat) (h : t.Within p s) :
    prob (fun q : K × (Equiv.Perm C × (I → Z)) => ¬ Good pt mask q.1 (t.pairs q.2.1 q.2.2) (t.blks q.2.1 q.2.2) q.2.2) ≤
      (p + p * s) / Nat.card K + s * s / Nat.card C := by
  have : Nonempty (Equiv.Perm C) := ⟨1⟩
  have h1 : prob (fun q : K × (Equiv.Perm C × (I → Z)) => ¬ ∀ r ∈ t.pairs q.2.1 q.2.2, ∀ i ∈ t.blks q.2.1 q.2.2,
      r.1 ≠ pt q.1 i ∧ r.2 ≠ inner pt mask q.1 q.2.2 i) ≤ (p + p * s) / Nat.card K := by
    refine prob_prod_le _ _ fun ω => ?_
    exact meet_le pt mask hk hm (t.pairs ω.1 ω.2) (t.blks ω.1 ω.2) ω.2 p s (h.lengths ω.1 ω.2).1 (h.lengths ω.1 ω.2).2
  have h2 : prob (fun q : K × (Equiv.Perm C × (I → Z)) => ¬ ∀ i ∈ t.blks q.2.1 q.2.2, ∀ j ∈ t.blks q.2.1 q.2.2,
      inner pt mask q.1 q.2.2 i = inner pt mask q.1 q.2.2 j → i = j) ≤ s * s / Nat.card C := by
    rw [← prob_equiv ((Equiv.prodComm (I → Z) (K × Equiv.Perm C)).trans (Equiv.prodAssoc _ _ _))]
    exact prob_prod_le _ _ fun kP => clash_le pt mask kP.1 kP.2 t p s h
  refine le_trans (prob_mono fun q hq => ?_) (le_trans (prob_or _ _) (add_le_add h1 h2))
  unfold Good at hq
  exact not_and_or.mp hq

/-! ## The keyed function against a random one -/

theorem prob_fst_le {α β γ : Type} [Finite α] [Finite β] [Finite γ] (P : α × β → Prop) (Q : α × γ → Prop)
    (h : ∀ a, prob (fun c => Q (a, c)) ≤ prob (fun b => P (a, b))) : prob Q ≤ prob P := by
  classical
  have : Fintype α := Fintype.ofFinite α
  rw [← prob_equiv (Equiv.prodComm β α) P, ← prob_equiv (Equiv.prodComm γ α) Q, prob_prod, prob_prod]
  exact div_le_div_of_nonneg_right (Finset.sum_le_sum fun a _ => h a) (by positivity)

theorem one_side [Finite K] [Finite I] [Finite Z] [Finite C] [Nonempty K] [Nonempty C] [Nonempty Z] (hk : ∀ k i k' i', pt k i = pt k' i' → k = k' ∧ i = i')
    (hm : ∀ x x' y, mask x y = mask x' y → x = x') (t : Tester I Z C) (p s : Nat) (h : t.Within p s) (v : Bool) :
    prob (fun ω : Equiv.Perm C × (I → Z) => t.run ω.1 ω.2 = v) ≤
      prob (fun q : K × Equiv.Perm C => t.run q.2 (real pt mask q.1 q.2) = v) + ((p + p * s) / Nat.card K + s * s / Nat.card C) := by
  have hlow : prob (fun q : K × (Equiv.Perm C × (I → Z)) => t.run q.2.1 q.2.2 = v ∧ Good pt mask q.1 (t.pairs q.2.1 q.2.2) (t.blks q.2.1 q.2.2) q.2.2) ≤
      prob (fun q : K × Equiv.Perm C => t.run q.2 (real pt mask q.1 q.2) = v) := by
    refine prob_fst_le _ _ fun k => ?_
    have e1 : Om ([] : List (C × C)) ([] : List (I × Z)) = Set.univ := by ext; simp [Om, SP]
    have e2 : SP (([] : List (C × C)) ++ D pt mask k []) = Set.univ := by ext; simp [SP, D]
    have := lower pt mask k (fun i i' e => (hk k i k i' e).2) v t [] [] (by rw [e1]; exact ⟨(1, fun _ => Classical.arbitrary Z), trivial⟩)
      (by rw [e2]; exact ⟨1, trivial⟩)
    rw [e1, e2, cprob_univ, cprob_univ] at this
    simpa using this
  have hacc := accident pt mask (fun k i k' i' e => (hk k i k' i' e).1) hm t p s h
  have : Nonempty (Equiv.Perm C) := ⟨1⟩
  rw [← prob_snd (α := K) (fun ω : Equiv.Perm C × (I → Z) => t.run ω.1 ω.2 = v)]
  refine le_trans (prob_mono (Q := fun q : K × (Equiv.Perm C × (I → Z)) => (t.run q.2.1 q.2.2 = v ∧
    Good pt mask q.1 (t.pairs q.2.1 q.2.2) (t.blks q.2.1 q.2.2) q.2.2) ∨ ¬ Good pt mask q.1 (t.pairs q.2.1 q.2.2) (t.blks q.2.1 q.2.2) q.2.2)
    fun q hq => ?_) (le_trans (prob_or _ _) (add_le_add hlow hacc))
  by_cases hg : Good pt mask q.1 (t.pairs q.2.1 q.2.2) (t.blks q.2.1 q.2.2) q.2.2
  · exact Or.inl ⟨hq, hg⟩
  · exact Or.inr hg

/-- The keyed function made from a random permutation, for a random key, looks like a random function, also to those who can compute the
permutation and its inverse. -/
theorem advantage_le [Finite K] [Finite I] [Finite Z] [Finite C] [Nonempty K] [Nonempty C] [Nonempty Z]
    (hk : ∀ k i k' i', pt k i = pt k' i' → k = k' ∧ i = i') (hm : ∀ x x' y, mask x y = mask x' y → x = x') (t : Tester I Z C) (p s : Nat)
    (h : t.Within p s) :
    |prob (fun q : K × Equiv.Perm C => t.run q.2 (real pt mask q.1 q.2) = true) - prob (fun ω : Equiv.Perm C × (I → Z) => t.run ω.1 ω.2 = true)| ≤
      (p + p * s) / Nat.card K + s * s / Nat.card C := by
  have h1 := one_side pt mask hk hm t p s h true
  have h2 := one_side pt mask hk hm t p s h false
  have : Nonempty (Equiv.Perm C) := ⟨1⟩
  have e1 := prob_not (fun q : K × Equiv.Perm C => t.run q.2 (real pt mask q.1 q.2) = true)
  have e2 := prob_not (fun ω : Equiv.Perm C × (I → Z) => t.run ω.1 ω.2 = true)
  simp only [Bool.not_eq_true] at e1 e2
  rw [abs_le]
  constructor <;> linarith

end CryptoPure.Proofs.PermIdeal
