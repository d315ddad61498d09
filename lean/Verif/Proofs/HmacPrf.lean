import Verif.Spec.HmacTests
import Verif.Proofs.Prob
import Mathlib.Logic.Equiv.Prod
import Mathlib.Algebra.Order.Group.Abs
import Mathlib.Tactic.FieldSimp

/-! # The pseudorandomness of HMAC, in general terms -/

namespace CryptoPure.Proofs.HmacPrf
open Game Distinguisher HmacTests

section Points
variable {B C : Type}

theorem prob_eq [Finite C] [Nonempty C] (c : C) : prob (fun x : C => x = c) = 1 / Nat.card C := by
  unfold prob
  rw [show {k | k = c} = {c} from rfl, Set.ncard_singleton]
  simp

theorem prob_prod_congr {α α' β : Type} [Finite α] [Finite α'] [Finite β] {P : α × β → Prop} {Q : α' × β → Prop}
    (h : ∀ b, prob (fun a => P (a, b)) = prob (fun a => Q (a, b))) : prob P = prob Q := by
  have : Fintype β := Fintype.ofFinite β
  rw [prob_prod, prob_prod, Finset.sum_congr rfl fun b _ => h b]

/-- The value of a random function at one point is random. -/
theorem prob_one [Finite B] [Finite C] [Nonempty C] (a : B) (P : C → Prop) : prob (fun F : B → C => P (F a)) = prob P := by
  classical
  rw [← prob_fst (β := {j : B // j ≠ a} → C) P, ← prob_equiv (Equiv.funSplitAt a C)]
  rfl

/-- The values at two points are independent. -/
theorem prob_two [Finite B] [Finite C] [Nonempty C] {a b : B} (h : a ≠ b) (P : C × C → Prop) :
    prob (fun F : B → C => P (F a, F b)) = prob P := by
  classical
  have e1 := prob_equiv (Equiv.funSplitAt a C) (fun q => P (q.1, q.2 ⟨b, h.symm⟩))
  refine (show prob (fun F : B → C => P (F a, F b)) = _ from e1).trans ?_
  rw [← prob_equiv (Equiv.prodComm _ _)]
  rw [← prob_equiv (Equiv.prodComm C C)]
  exact prob_prod_congr fun c => prob_one (⟨b, h.symm⟩ : {j : B // j ≠ a}) (fun x => P (c, x))

/-- A random value is equal to an independent one. -/
theorem prob_hit [Finite C] [Nonempty C] (s : C → C) : prob (fun q : C × C => q.1 = s q.2) = 1 / Nat.card C := by
  have h : prob (fun q : C × C => q.1 = s q.2) = prob (fun q : C × C => q.1 = Classical.arbitrary C) :=
    prob_prod_congr fun b => by
      show prob (fun a => a = s b) = prob (fun a => a = Classical.arbitrary C)
      rw [prob_eq, prob_eq]
  rw [h, prob_fst (P := fun x => x = Classical.arbitrary C), prob_eq]

end Points

/-! ## Random functions of values that do not collide -/

section Compose
variable {B C M : Type} (φ : M → B) (E : (M → C) → Prop) (Ms : (M → C) → List M)

open Classical in
/-- `F` with the values at the points of the messages replaced. -/
noncomputable def over (F : B → C) (G : M → C) (l : List M) : B → C := fun b =>
  if e : ∃ m ∈ l, φ m = b then G e.choose else F b

open Classical in
/-- `G` with the values at the messages replaced. -/
noncomputable def under (F : B → C) (G : M → C) (l : List M) : M → C := fun m => if m ∈ l then F (φ m) else G m

variable {φ}

theorem over_at {F : B → C} {G : M → C} {l : List M} (hl : ∀ m ∈ l, ∀ m' ∈ l, φ m = φ m' → m = m') {m : M} (hm : m ∈ l) :
    over φ F G l (φ m) = G m := by
  unfold over
  have e : ∃ m' ∈ l, φ m' = φ m := ⟨m, hm, rfl⟩
  rw [dif_pos e, hl _ e.choose_spec.1 _ hm e.choose_spec.2]

theorem over_else {F : B → C} {G : M → C} {l : List M} {b : B} (h : ¬ ∃ m ∈ l, φ m = b) : over φ F G l b = F b := by
  unfold over; rw [dif_neg h]

variable (φ)

/-- A random function of the points of the messages is a random function of the messages, as long as the points are different. -/
theorem compose [Finite B] [Finite C] [Finite M] [Nonempty C]
    (congr : ∀ t t' : M → C, (∀ m ∈ Ms t, t m = t' m) → (E t ↔ E t') ∧ Ms t = Ms t') :
    prob (fun G : M → C => E G) ≤ prob (fun F : B → C => E (fun m => F (φ m))) +
      prob (fun G : M → C => ∃ m ∈ Ms G, ∃ m' ∈ Ms G, m ≠ m' ∧ φ m = φ m') := by
  have key : ∀ {F : B → C} {G : M → C}, (∀ m ∈ Ms G, ∀ m' ∈ Ms G, φ m = φ m' → m = m') →
      (E G ↔ E (fun m => over φ F G (Ms G) (φ m))) ∧ Ms G = Ms (fun m => over φ F G (Ms G) (φ m)) := fun hl =>
    congr _ _ fun m hm => (over_at hl hm).symm
  have h1 : prob (fun ω : (B → C) × (M → C) => E ω.2 ∧ ∀ m ∈ Ms ω.2, ∀ m' ∈ Ms ω.2, φ m = φ m' → m = m') ≤
      prob (fun ω : (B → C) × (M → C) => E (fun m => ω.1 (φ m))) := by
    refine prob_inj (fun ω => (over φ ω.1 ω.2 (Ms ω.2), under φ ω.1 ω.2 (Ms ω.2))) ?_ ?_
    · rintro ⟨F, G⟩ ⟨h1, h2⟩
      exact (key h2).1.mp h1
    · rintro ⟨F, G⟩ ⟨F', G'⟩ ⟨-, h⟩ ⟨-, h'⟩ e
      simp only [Prod.mk.injEq] at e h h' ⊢
      have eM : Ms G = Ms G' := by
        rw [(key (F := F) h).2, (key (F := F') h').2, e.1]
      rw [eM] at e h
      obtain ⟨e1, e2⟩ := e
      constructor
      · funext b
        by_cases hb : ∃ m ∈ Ms G', φ m = b
        · obtain ⟨m, hm, rfl⟩ := hb
          have := congrFun e2 m
          unfold under at this
          rwa [if_pos hm, if_pos hm] at this
        · have := congrFun e1 b
          rwa [over_else hb, over_else hb] at this
      · funext m
        by_cases hm : m ∈ Ms G'
        · have := congrFun e1 (φ m)
          rwa [over_at h hm, over_at h' hm] at this
        · have := congrFun e2 m
          unfold under at this
          rwa [if_neg hm, if_neg hm] at this
  rw [← prob_snd (α := B → C) (P := fun G => E G), ← prob_fst (β := M → C) (P := fun F : B → C => E (fun m => F (φ m))),
    ← prob_snd (α := B → C) (P := fun G => ∃ m ∈ Ms G, ∃ m' ∈ Ms G, m ≠ m' ∧ φ m = φ m')]
  refine le_trans ?_ (add_le_add_left h1 _)
  refine le_trans (prob_mono fun ω hω => ?_) (prob_or _ _)
  by_cases h : ∃ m ∈ Ms ω.2, ∃ m' ∈ Ms ω.2, m ≠ m' ∧ φ m = φ m'
  · exact Or.inr h
  · push Not at h
    exact Or.inl ⟨hω, fun m hm m' hm' e => by_contra fun hne => h m hm m' hm' hne e⟩

end Compose

/-- Collisions in a list. -/
theorem pairs {C M B : Type} [Finite C] (φ : C → M → B) (δ : ℚ) (l : List M)
    (h : ∀ m ∈ l, ∀ m' ∈ l, m ≠ m' → prob (fun k => φ k m = φ k m') ≤ δ) (hδ : 0 ≤ δ) :
    prob (fun k => ∃ m ∈ l, ∃ m' ∈ l, m ≠ m' ∧ φ k m = φ k m') ≤ l.length * (l.length - 1) / 2 * δ := by
  induction l with
  | nil => simp [prob]
  | cons x l ih =>
    have h1 : ∀ l' : List M, (∀ m ∈ l', m ∈ l) → prob (fun k => ∃ m ∈ l', x ≠ m ∧ φ k x = φ k m) ≤ l'.length * δ := by
      intro l' hl'
      induction l' with
      | nil => simp [prob]
      | cons y l' ih' =>
        have i1 := ih' fun m hm => hl' m (List.mem_cons_of_mem _ hm)
        have i2 : prob (fun k => x ≠ y ∧ φ k x = φ k y) ≤ δ := by
          by_cases e : x = y
          · simpa [prob, e] using hδ
          · refine le_trans (prob_mono fun k hk => hk.2) (h x (by simp) y (List.mem_cons_of_mem _ (hl' y (by simp))) e)
        have i3 : prob (fun k => ∃ m ∈ y :: l', x ≠ m ∧ φ k x = φ k m) ≤
            prob (fun k => x ≠ y ∧ φ k x = φ k y) + prob (fun k => ∃ m ∈ l', x ≠ m ∧ φ k x = φ k m) := by
          refine le_trans (prob_mono fun k hk => ?_) (prob_or _ _)
          obtain ⟨m, hm, hk⟩ := hk
          rcases List.mem_cons.mp hm with rfl | hm
          · exact Or.inl hk
          · exact Or.inr ⟨m, hm, hk⟩
        rw [List.length_cons]
        push_cast
        linarith
    have h2 := h1 l fun _ h => h
    have h3 := ih fun m hm m' hm' => h m (List.mem_cons_of_mem _ hm) m' (List.mem_cons_of_mem _ hm')
    have h4 : prob (fun k => ∃ m ∈ x :: l, ∃ m' ∈ x :: l, m ≠ m' ∧ φ k m = φ k m') ≤
        prob (fun k => ∃ m ∈ l, x ≠ m ∧ φ k x = φ k m) + prob (fun k => ∃ m ∈ l, ∃ m' ∈ l, m ≠ m' ∧ φ k m = φ k m') := by
      refine le_trans (prob_mono fun k hk => ?_) (prob_or _ _)
      obtain ⟨m, hm, m', hm', hne, hk⟩ := hk
      rcases List.mem_cons.mp hm with e | hm1
      · rcases List.mem_cons.mp hm' with e' | hm2
        · exact absurd (e.trans e'.symm) hne
        · exact Or.inl ⟨m', hm2, e ▸ hne, e ▸ hk⟩
      · rcases List.mem_cons.mp hm' with e' | hm2
        · exact Or.inl ⟨m, hm1, e' ▸ hne.symm, e' ▸ hk.symm⟩
        · exact Or.inr ⟨m, hm1, m', hm2, hne, hk⟩
    rw [List.length_cons]
    push_cast
    have : ((l.length : ℚ) + 1) * ((l.length : ℚ) + 1 - 1) / 2 * δ = l.length * δ + l.length * (l.length - 1) / 2 * δ := by ring
    linarith

section Main
variable {B C M T : Type} [Finite B] [Finite C] [Finite M] [Nonempty C]

/-- The outer random function of inner values, against a random function of the messages. -/
theorem inner_outer (φ : C → M → B) (g : C → T) (E : (M → T) → Prop) (Ms : (M → T) → List M)
    (congr : ∀ t t' : M → T, (∀ m ∈ Ms t, t m = t' m) → (E t ↔ E t') ∧ Ms t = Ms t') (q : Nat) (hq : ∀ t, (Ms t).length ≤ q) (δ : ℚ) (hδ0 : 0 ≤ δ)
    (hδ : ∀ m m', m ≠ m' → prob (fun k => φ k m = φ k m') ≤ δ) :
    |prob (fun p : (B → C) × C => E (fun m => g (p.1 (φ p.2 m)))) - prob (fun G : M → C => E (fun m => g (G m)))| ≤ q * (q - 1) / 2 * δ := by
  have one : ∀ E : (M → T) → Prop, (∀ t t' : M → T, (∀ m ∈ Ms t, t m = t' m) → (E t ↔ E t')) →
      prob (fun G : M → C => E (fun m => g (G m))) ≤ prob (fun p : (B → C) × C => E (fun m => g (p.1 (φ p.2 m)))) + q * (q - 1) / 2 * δ := by
    intro E hE
    have : Fintype C := Fintype.ofFinite C
    have c1 : ∀ k : C, prob (fun G : M → C => E (fun m => g (G m))) ≤ prob (fun F : B → C => E (fun m => g (F (φ k m)))) +
        prob (fun G : M → C => ∃ m ∈ Ms (fun m => g (G m)), ∃ m' ∈ Ms (fun m => g (G m)), m ≠ m' ∧ φ k m = φ k m') := fun k =>
      compose (φ k) (fun G => E (fun m => g (G m))) (fun G => Ms (fun m => g (G m)))
        (fun t t' h => ⟨hE _ _ fun m hm => congrArg g (h m hm), (congr _ _ fun m hm => congrArg g (h m hm)).2⟩)
    have c2 : prob (fun p : (M → C) × C => ∃ m ∈ Ms (fun m => g (p.1 m)), ∃ m' ∈ Ms (fun m => g (p.1 m)), m ≠ m' ∧ φ p.2 m = φ p.2 m') ≤
        q * (q - 1) / 2 * δ := by
      rw [← prob_equiv (Equiv.prodComm C (M → C))]
      refine prob_prod_le _ _ fun G => ?_
      have := pairs φ δ (Ms fun m => g (G m)) (fun m _ m' _ h => hδ m m' h) hδ0
      refine le_trans this (mul_le_mul_of_nonneg_right ?_ hδ0)
      have hl := hq fun m => g (G m)
      generalize (Ms fun m => g (G m)).length = l at *
      rcases Nat.eq_zero_or_pos l with rfl | hl0
      · rcases Nat.eq_zero_or_pos q with rfl | hq0
        · simp
        · have : (1 : ℚ) ≤ q := by exact_mod_cast hq0
          simp
          have : (0 : ℚ) ≤ q * (q - 1) := mul_nonneg (by linarith) (by linarith)
          linarith
      · have h1 : (1 : ℚ) ≤ l := by exact_mod_cast hl0
        have h2 : (l : ℚ) ≤ q := by exact_mod_cast hl
        have : (l : ℚ) * (l - 1) ≤ q * (q - 1) := mul_le_mul h2 (by linarith) (by linarith) (by linarith)
        linarith
    refine le_trans ?_ (add_le_add_right c2 _)
    rw [prob_prod (α := B → C), prob_prod (α := M → C), ← add_div, ← Finset.sum_add_distrib,
      le_div_iff₀ (by exact_mod_cast Fintype.card_pos)]
    calc _ = ∑ _k : C, prob (fun G : M → C => E (fun m => g (G m))) := by
          rw [Finset.sum_const, Finset.card_univ, nsmul_eq_mul, mul_comm]
      _ ≤ _ := Finset.sum_le_sum fun k _ => c1 k
  have h1 := one E fun t t' h => (congr t t' h).1
  have h2 := one (fun t => ¬ E t) fun t t' h => not_congr (congr t t' h).1
  rw [prob_not, prob_not] at h2
  rw [abs_le]
  constructor <;> linarith

end Main

/-! ## Collisions of the cascade -/

section Cascade
variable {B C : Type} [DecidableEq C] [DecidableEq B] [Finite B] [Finite C] [Nonempty C] (f : C → B → C)

/-- The sum of the advantages of tests, all for the keyed function `f`. -/
noncomputable def advantages (l : List (C → Distinguisher B C)) : ℚ :=
  (l.map (coinAdvantage f (fun F : B → C => F))).sum

theorem real_le {K I Coin α β : Type} (real : K → α → β) (ideal : I → α → β) (D : Coin → Distinguisher α β) :
    prob (fun q : K × Coin => (D q.2).run (real q.1) = true) ≤
    coinAdvantage real ideal D + prob (fun q : I × Coin => (D q.2).run (ideal q.1) = true) := by
  have := le_abs_self (prob (fun q : K × Coin => (D q.2).run (real q.1) = true) - prob (fun q : I × Coin => (D q.2).run (ideal q.1) = true))
  unfold coinAdvantage
  linarith

omit [DecidableEq B] in
theorem equal_le (x : B) (X : List B) (y : B) (Y : List B) :
    prob (fun H => X.foldl f (f H x) = Y.foldl f (f H y)) ≤
    coinAdvantage f (fun F : B → C => F) (fun _ : C => equalTest f x X y Y) + prob (fun F : B → C => X.foldl f (F x) = Y.foldl f (F y)) := by
  have := real_le f (fun F : B → C => F) (fun _ : C => equalTest f x X y Y)
  simp only [equalTest, Distinguisher.run, decide_eq_true_eq] at this
  rw [prob_fst (P := fun H => X.foldl f (f H x) = Y.foldl f (f H y)), prob_fst (P := fun F : B → C => X.foldl f (F x) = Y.foldl f (F y))] at this
  exact this

omit [DecidableEq B] in
theorem value_le (X Y : List B) :
    prob (fun q : C × C => X.foldl f q.1 = Y.foldl f q.2) ≤ advantages f (valueTests f X Y) + 1 / Nat.card C := by
  induction X with
  | nil =>
    have := prob_hit (fun v : C => Y.foldl f v)
    simp only [List.foldl_nil, valueTests, advantages, List.map_nil, List.sum_nil, zero_add]
    exact le_of_eq this
  | cons x X ih =>
    have h := real_le f (fun F : B → C => F) (valueTest f x X Y)
    simp only [valueTest, Distinguisher.run, decide_eq_true_eq] at h
    have e : prob (fun q : (B → C) × C => X.foldl f (q.1 x) = Y.foldl f q.2) = prob (fun q : C × C => X.foldl f q.1 = Y.foldl f q.2) :=
      prob_prod_congr fun v => prob_one x (fun u => X.foldl f u = Y.foldl f v)
    rw [e] at h
    unfold advantages at ih ⊢
    simp only [List.foldl_cons, valueTests, List.map_cons, List.sum_cons]
    change prob (fun q : C × C => X.foldl f (f q.1 x) = Y.foldl f q.2) ≤ _
    change _ ≤ coinAdvantage f (fun F : B → C => F) (valueTest f x X Y) + _ at h
    linarith

/-- Two different lists of blocks. -/
theorem collision_le (other : B → B) (ho : ∀ b, other b ≠ b) (X Y : List B) (hne : X ≠ Y) :
    prob (fun H => X.foldl f H = Y.foldl f H) ≤ advantages f (collisionTests f other X Y) + 1 / Nat.card C := by
  have one : ∀ (u v : B) (U : List B), u ≠ v → prob (fun F : B → C => F u = U.foldl f (F v)) = 1 / Nat.card C := fun u v U h =>
    (prob_two h (fun q => q.1 = U.foldl f q.2)).trans (prob_hit (fun c => U.foldl f c))
  induction X generalizing Y with
  | nil =>
    cases Y with
    | nil => exact absurd rfl hne
    | cons y Y =>
      have h := equal_le f (other y) [] y (Y ++ [other y])
      simp only [List.foldl_nil] at h
      rw [one _ _ _ (ho y)] at h
      unfold advantages
      simp only [collisionTests, List.map_cons, List.map_nil, List.sum_cons, List.sum_nil, add_zero]
      refine le_trans (prob_mono fun H hH => ?_) h
      rw [List.foldl_append, ← List.foldl_cons (f := f) (b := H), ← hH]
      rfl
  | cons x X ih =>
    cases Y with
    | nil =>
      have h := equal_le f x (X ++ [other x]) (other x) []
      simp only [List.foldl_nil] at h
      have e : prob (fun F : B → C => (X ++ [other x]).foldl f (F x) = F (other x)) = 1 / Nat.card C := by
        rw [← one _ _ (X ++ [other x]) (ho x)]
        congr 1
        funext F
        exact propext eq_comm
      rw [e] at h
      unfold advantages
      simp only [collisionTests, List.map_cons, List.map_nil, List.sum_cons, List.sum_nil, add_zero]
      refine le_trans (prob_mono fun H hH => ?_) h
      rw [List.foldl_append, ← List.foldl_cons (f := f) (b := H), hH]
      rfl
    | cons y Y =>
      have h := equal_le f x X y Y
      unfold advantages at ih ⊢
      simp only [collisionTests, List.map_cons, List.sum_cons, List.foldl_cons]
      by_cases e : x = y
      · subst e
        rw [if_pos rfl]
        rw [prob_one x (fun u => X.foldl f u = Y.foldl f u)] at h
        have := ih Y (fun e => hne (by rw [e]))
        linarith
      · rw [if_neg e]
        rw [prob_two e (fun q => X.foldl f q.1 = Y.foldl f q.2)] at h
        have := value_le f X Y
        unfold advantages at this
        linarith

omit [DecidableEq B] [Finite B] [Finite C] [Nonempty C] in
theorem valueTests_length (X Y : List B) : (valueTests f X Y).length = X.length := by
  induction X with
  | nil => rfl
  | cons x X ih => simp [valueTests, ih]

omit [Finite B] [Finite C] [Nonempty C] in
theorem collisionTests_length (other : B → B) (X Y : List B) : (collisionTests f other X Y).length ≤ X.length + 1 := by
  induction X generalizing Y with
  | nil => cases Y <;> simp [collisionTests]
  | cons x X ih =>
    cases Y with
    | nil => simp [collisionTests]
    | cons y Y =>
      simp only [collisionTests, List.length_cons]
      have := ih Y
      have := valueTests_length f X Y
      split <;> omega

omit [DecidableEq B] [Finite B] [Finite C] [Nonempty C] in
theorem valueTests_asks (X Y : List B) : ∀ D ∈ valueTests f X Y, ∀ c, (D c).Asks 2 := by
  induction X with
  | nil => simp [valueTests]
  | cons x X ih =>
    intro D hD c
    rcases List.mem_cons.mp hD with rfl | hD
    · exact ⟨1, rfl, fun _ => trivial⟩
    · exact ih D hD c

omit [Finite B] [Finite C] [Nonempty C] in
theorem collisionTests_asks (other : B → B) (X Y : List B) : ∀ D ∈ collisionTests f other X Y, ∀ c, (D c).Asks 2 := by
  have eq : ∀ x X y Y, (equalTest f x X y Y).Asks 2 := fun _ _ _ _ => ⟨1, rfl, fun _ => ⟨0, rfl, fun _ => trivial⟩⟩
  induction X generalizing Y with
  | nil =>
    cases Y with
    | nil => simp [collisionTests]
    | cons y Y =>
      intro D hD c
      simp only [collisionTests, List.mem_singleton] at hD
      subst hD; exact eq ..
  | cons x X ih =>
    cases Y with
    | nil =>
      intro D hD c
      simp only [collisionTests, List.mem_singleton] at hD
      subst hD; exact eq ..
    | cons y Y =>
      intro D hD c
      simp only [collisionTests, List.mem_cons] at hD
      rcases hD with rfl | hD
      · exact eq ..
      · split at hD
        · exact ih Y D hD c
        · exact valueTests_asks f X Y D hD c

end Cascade

end CryptoPure.Proofs.HmacPrf
