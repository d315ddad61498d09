import Verif.Proofs.Prob
import Verif.Proofs.MerkleDamgard
import Verif.Proofs.Switch

/-! # HMAC over a random compression function

`C` are the chaining values, `B` the blocks, `K` the keys, `M` the messages, `T` the tags. The messages are hashed as lists of blocks. -/

namespace CryptoPure.Proofs.HmacIdeal
open Game Switch

section Defs
variable {C B K M T : Type} (iv : C) (ki ko : K → B) (blocks : M → List B) (g : C → T) (ob : T → B)

/-- The arguments on which `f` is evaluated when `bs` is absorbed starting from `s`. -/
def calls (f : C × B → C) : C → List B → List (C × B)
  | _, [] => []
  | s, b :: bs => (s, b) :: calls f (f (s, b)) bs

/-- The chaining value after `bs`. -/
def chain (f : C × B → C) : C → List B → C
  | s, [] => s
  | s, b :: bs => chain f (f (s, b)) bs

/-- The chaining value at the end of the inner hash. -/
def inner (f : C × B → C) (k : K) (m : M) : C := chain f (f (iv, ki k)) (blocks m)

/-- The argument of the last call. -/
def final (f : C × B → C) (k : K) (m : M) : C × B := (f (iv, ko k), ob (g (inner iv ki blocks f k m)))

/-- HMAC. -/
def tag (f : C × B → C) (k : K) (m : M) : T := g (f (final iv ki ko blocks g ob f k m))

/-- The arguments of the calls for the inner hash. -/
def pts (f : C × B → C) (k : K) (m : M) : List (C × B) := (iv, ki k) :: calls f (f (iv, ki k)) (blocks m)

theorem chain_congr {f h : C × B → C} (bs : List B) (s : C) (e : ∀ x ∈ calls h s bs, f x = h x) : chain f s bs = chain h s bs := by
  induction bs generalizing s with
  | nil => rfl
  | cons b bs ih =>
    unfold chain
    rw [e _ (by simp [calls])]
    exact ih _ fun x hx => e x (by simp [calls, hx])

/-- Nothing that the attacker asked for (`Q`), and no last call for one of the messages in `Ms`, is among the calls that HMAC makes before; the
last calls are different for different messages and not asked for. -/
structure Good (k : K) (h : C × B → C) (Q : List (C × B)) (Ms : List M) : Prop where
  hid : ∀ m ∈ Ms, ∀ x ∈ pts iv ki blocks h k m, x ∉ Q ∧ ∀ m' ∈ Ms, final iv ki ko blocks g ob h k m' ≠ x
  out : (iv, ko k) ∉ Q ∧ ∀ m' ∈ Ms, final iv ki ko blocks g ob h k m' ≠ (iv, ko k)
  fin : ∀ m ∈ Ms, final iv ki ko blocks g ob h k m ∉ Q
  inj : ∀ m ∈ Ms, ∀ m' ∈ Ms, final iv ki ko blocks g ob h k m = final iv ki ko blocks g ob h k m' → m = m'

open Classical in
/-- `h`, with the values at `Q` replaced by those of `f'`, and at the last calls by those of `G`. -/
noncomputable def merge (k : K) (h f' : C × B → C) (G : M → C) (Q : List (C × B)) (Ms : List M) : C × B → C := fun x =>
  if x ∈ Q then f' x
  else if e : ∃ m ∈ Ms, final iv ki ko blocks g ob h k m = x then G e.choose
  else h x

open Classical in
/-- `f'`, with the values at `Q` replaced by those of `h`. -/
noncomputable def rest (h f' : C × B → C) (Q : List (C × B)) : C × B → C := fun x => if x ∈ Q then h x else f' x

open Classical in
/-- `G`, with the values at `Ms` replaced by those of `h` at the last calls. -/
noncomputable def restG (k : K) (h : C × B → C) (G : M → C) (Ms : List M) : M → C := fun m =>
  if m ∈ Ms then h (final iv ki ko blocks g ob h k m) else G m

variable {iv ki ko blocks g ob}
variable {k : K} {h f' : C × B → C} {G : M → C} {Q : List (C × B)} {Ms : List M}

theorem merge_Q {x : C × B} (hx : x ∈ Q) : merge iv ki ko blocks g ob k h f' G Q Ms x = f' x := by
  unfold merge; rw [if_pos hx]

theorem merge_final (hg : Good iv ki ko blocks g ob k h Q Ms) {m : M} (hm : m ∈ Ms) :
    merge iv ki ko blocks g ob k h f' G Q Ms (final iv ki ko blocks g ob h k m) = G m := by
  unfold merge
  have e : ∃ m' ∈ Ms, final iv ki ko blocks g ob h k m' = final iv ki ko blocks g ob h k m := ⟨m, hm, rfl⟩
  rw [if_neg (hg.fin m hm), dif_pos e]
  rw [hg.inj _ e.choose_spec.1 _ hm e.choose_spec.2]

theorem merge_else {x : C × B} (h1 : x ∉ Q) (h2 : ∀ m ∈ Ms, final iv ki ko blocks g ob h k m ≠ x) :
    merge iv ki ko blocks g ob k h f' G Q Ms x = h x := by
  unfold merge
  rw [if_neg h1, dif_neg]
  rintro ⟨m, hm, e⟩
  exact h2 m hm e

theorem merge_inner (hg : Good iv ki ko blocks g ob k h Q Ms) {m : M} (hm : m ∈ Ms) :
    inner iv ki blocks (merge iv ki ko blocks g ob k h f' G Q Ms) k m = inner iv ki blocks h k m := by
  have e : ∀ x ∈ pts iv ki blocks h k m, merge iv ki ko blocks g ob k h f' G Q Ms x = h x := fun x hx =>
    merge_else (hg.hid m hm x hx).1 (hg.hid m hm x hx).2
  unfold inner
  rw [e _ (by simp [pts])]
  exact chain_congr _ _ fun x hx => e x (by simp [pts, hx])

theorem merge_final_eq (hg : Good iv ki ko blocks g ob k h Q Ms) {m : M} (hm : m ∈ Ms) :
    final iv ki ko blocks g ob (merge iv ki ko blocks g ob k h f' G Q Ms) k m = final iv ki ko blocks g ob h k m := by
  unfold final
  rw [merge_inner hg hm, merge_else hg.out.1 hg.out.2]

/-- HMAC over the merged function gives the values of `G`. -/
theorem merge_tag (hg : Good iv ki ko blocks g ob k h Q Ms) {m : M} (hm : m ∈ Ms) :
    tag iv ki ko blocks g ob (merge iv ki ko blocks g ob k h f' G Q Ms) k m = g (G m) := by
  unfold tag
  rw [merge_final_eq hg hm, merge_final hg hm]

end Defs

/-! ## The real and the ideal game -/

section Main
variable {C B K M T : Type} (iv : C) (ki ko : K → B) (blocks : M → List B) (g : C → T) (ob : T → B)

/-- An experiment with a function and a tagging function, that looks only at the values on `Q` and on `Ms`. -/
structure Exper (C B M T : Type) where
  E : (C × B → C) → (M → T) → Prop
  Q : (C × B → C) → (M → T) → List (C × B)
  Ms : (C × B → C) → (M → T) → List M
  congr : ∀ f f' t t', (∀ x ∈ Q f t, f x = f' x) → (∀ m ∈ Ms f t, t m = t' m) → (E f t ↔ E f' t') ∧ Q f t = Q f' t' ∧ Ms f t = Ms f' t'

variable (X : Exper C B M T)

/-- No accident happens. -/
def Ok (ω : (K × (C × B → C)) × ((C × B → C) × (M → C))) : Prop :=
  Good iv ki ko blocks g ob ω.1.1 ω.1.2 (X.Q ω.2.1 (fun m => g (ω.2.2 m))) (X.Ms ω.2.1 (fun m => g (ω.2.2 m)))

/-- Exchange the values that the ideal game uses with those that the real game uses. -/
noncomputable def swap (ω : (K × (C × B → C)) × ((C × B → C) × (M → C))) : (K × (C × B → C)) × ((C × B → C) × (M → C)) :=
  ((ω.1.1, merge iv ki ko blocks g ob ω.1.1 ω.1.2 ω.2.1 ω.2.2 (X.Q ω.2.1 (fun m => g (ω.2.2 m))) (X.Ms ω.2.1 (fun m => g (ω.2.2 m)))),
   (rest ω.1.2 ω.2.1 (X.Q ω.2.1 (fun m => g (ω.2.2 m))),
    restG iv ki ko blocks g ob ω.1.1 ω.1.2 ω.2.2 (X.Ms ω.2.1 (fun m => g (ω.2.2 m)))))

theorem swap_real {ω : (K × (C × B → C)) × ((C × B → C) × (M → C))} (hω : Ok iv ki ko blocks g ob X ω) :
    (X.E ω.2.1 (fun m => g (ω.2.2 m)) ↔
      X.E (swap iv ki ko blocks g ob X ω).1.2 (tag iv ki ko blocks g ob (swap iv ki ko blocks g ob X ω).1.2 (swap iv ki ko blocks g ob X ω).1.1)) ∧
    X.Q ω.2.1 (fun m => g (ω.2.2 m)) =
      X.Q (swap iv ki ko blocks g ob X ω).1.2 (tag iv ki ko blocks g ob (swap iv ki ko blocks g ob X ω).1.2 (swap iv ki ko blocks g ob X ω).1.1) ∧
    X.Ms ω.2.1 (fun m => g (ω.2.2 m)) =
      X.Ms (swap iv ki ko blocks g ob X ω).1.2 (tag iv ki ko blocks g ob (swap iv ki ko blocks g ob X ω).1.2 (swap iv ki ko blocks g ob X ω).1.1) := by
  refine X.congr _ _ _ _ (fun x hx => ?_) (fun m hm => ?_)
  · exact (merge_Q hx).symm
  · exact (merge_tag hω hm).symm

theorem swap_inj {ω ω' : (K × (C × B → C)) × ((C × B → C) × (M → C))} (hω : Ok iv ki ko blocks g ob X ω)
    (hω' : Ok iv ki ko blocks g ob X ω') (e : swap iv ki ko blocks g ob X ω = swap iv ki ko blocks g ob X ω') : ω = ω' := by
  obtain ⟨-, eQ, eM⟩ := swap_real iv ki ko blocks g ob X hω
  obtain ⟨-, eQ', eM'⟩ := swap_real iv ki ko blocks g ob X hω'
  rw [e, ← eQ'] at eQ
  rw [e, ← eM'] at eM
  obtain ⟨⟨k, h⟩, f', G⟩ := ω
  obtain ⟨⟨k', h'⟩, f'', G'⟩ := ω'
  unfold swap at e
  unfold Ok at hω hω'
  simp only [Prod.mk.injEq] at e eQ eM hω hω' ⊢
  rw [eQ, eM] at e hω
  generalize X.Q f'' (fun m => g (G' m)) = Q at *
  generalize X.Ms f'' (fun m => g (G' m)) = Ms at *
  obtain ⟨⟨rfl, e1⟩, e2, e3⟩ := e
  have hfin : ∀ m ∈ Ms, final iv ki ko blocks g ob h k m = final iv ki ko blocks g ob h' k m := by
    intro m hm
    rw [← merge_final_eq (f' := f') (G := G) hω hm, ← merge_final_eq (f' := f'') (G := G') hω' hm, e1]
  have hf : f' = f'' := by
    funext x
    by_cases hx : x ∈ Q
    · have := congrFun e1 x
      rwa [merge_Q hx, merge_Q hx] at this
    · have := congrFun e2 x
      unfold rest at this
      rwa [if_neg hx, if_neg hx] at this
  have hG : G = G' := by
    funext m
    by_cases hm : m ∈ Ms
    · have := congrFun e1 (final iv ki ko blocks g ob h k m)
      rw [merge_final hω hm, hfin m hm, merge_final hω' hm] at this
      exact this
    · have := congrFun e3 m
      unfold restG at this
      rwa [if_neg hm, if_neg hm] at this
  refine ⟨⟨rfl, ?_⟩, hf, hG⟩
  funext x
  by_cases hx : x ∈ Q
  · have := congrFun e2 x
    unfold rest at this
    rwa [if_pos hx, if_pos hx] at this
  by_cases hm : ∃ m ∈ Ms, final iv ki ko blocks g ob h k m = x
  · obtain ⟨m, hm, rfl⟩ := hm
    have := congrFun e3 m
    unfold restG at this
    rw [if_pos hm, if_pos hm] at this
    rw [this, hfin m hm]
  · have h2 : ∀ m ∈ Ms, final iv ki ko blocks g ob h k m ≠ x := fun m h e => hm ⟨m, h, e⟩
    have := congrFun e1 x
    rwa [merge_else hx h2, merge_else hx (fun m h => hfin m h ▸ h2 m h)] at this

/-- The ideal game differs from the real game only by accidents. -/
theorem ideal_le_real [Finite C] [Finite B] [Finite K] [Finite M] [Nonempty C] [Nonempty K] :
    prob (fun p : (C × B → C) × (M → C) => X.E p.1 (fun m => g (p.2 m))) ≤
      prob (fun p : K × (C × B → C) => X.E p.2 (tag iv ki ko blocks g ob p.2 p.1)) +
      prob (fun ω => ¬ Ok iv ki ko blocks g ob X ω) := by
  rw [← prob_snd (α := K × (C × B → C))]
  rw [← prob_fst (β := (C × B → C) × (M → C)) (P := fun p : K × (C × B → C) => X.E p.2 (tag iv ki ko blocks g ob p.2 p.1))]
  refine le_trans ?_ (add_le_add_left (prob_inj (P := fun ω => X.E ω.2.1 (fun m => g (ω.2.2 m)) ∧ Ok iv ki ko blocks g ob X ω)
    (swap iv ki ko blocks g ob X) ?_ ?_) _)
  · refine le_trans (prob_mono fun ω hω => ?_) (prob_or _ _)
    by_cases h : Ok iv ki ko blocks g ob X ω
    · exact Or.inl ⟨hω, h⟩
    · exact Or.inr h
  · rintro ω ⟨h1, h2⟩
    exact (swap_real iv ki ko blocks g ob X h2).1.mp h1
  · rintro ω ω' ⟨-, h⟩ ⟨-, h'⟩ e
    exact swap_inj iv ki ko blocks g ob X h h' e

end Main
/-! ## Accidents are rare -/

section Bad
variable {D C T : Type}

/-- A computation that evaluates a function. -/
inductive Eval (D C : Type) where
  | stop
  | ask (x : D) (next : C → Eval D C)

namespace Eval

/-- At most `n` evaluations. -/
def Within : Eval D C → Nat → Prop
  | stop, _ => True
  | ask _ next, n => ∃ n', n = n' + 1 ∧ ∀ y, Within (next y) n'

theorem Within.mono {t : Eval D C} {n n' : Nat} (h : t.Within n) (hn : n ≤ n') : t.Within n' := by
  induction t generalizing n n' with
  | stop => trivial
  | ask x next ih =>
    obtain ⟨j, rfl, hj⟩ := h
    exact ⟨n' - 1, by omega, fun y => ih y (hj y) (by omega)⟩

/-- At a new argument, the value is one of those in `seen`, up to `g`. -/
def Bad (g : C → T) (h : D → C) : Eval D C → List D → List T → Prop
  | stop, _, _ => False
  | ask x next, known, seen => (x ∉ known ∧ g (h x) ∈ seen) ∨ Bad g h (next (h x)) (x :: known) (g (h x) :: seen)

/-- The arguments. -/
def args (h : D → C) : Eval D C → List D
  | stop => []
  | ask x next => x :: args h (next (h x))

theorem not_bad {g : C → T} {h : D → C} (t : Eval D C) (known : List D) (seen : List T) (hb : ¬ Bad g h t known seen) :
    (∀ x ∈ args h t, x ∉ known → g (h x) ∉ seen) ∧
    ∀ x ∈ args h t, ∀ y ∈ args h t, x ∉ known → y ∉ known → g (h x) = g (h y) → x = y := by
  induction t generalizing known seen with
  | stop => simp [args]
  | ask z next ih =>
    unfold Bad at hb
    push Not at hb
    obtain ⟨h1, h2⟩ := hb
    obtain ⟨i1, i2⟩ := ih _ _ _ h2
    have key : ∀ x ∈ args h (next (h z)), x ∉ known → x ≠ z → g (h x) ∉ seen ∧ g (h x) ≠ g (h z) := by
      intro x hx hk hz
      have := i1 x hx (by simp [hz, hk])
      simp only [List.mem_cons, not_or] at this
      exact ⟨this.2, this.1⟩
    constructor
    · intro x hx hk
      rcases List.mem_cons.mp hx with rfl | hx
      · exact h1 hk
      · by_cases hz : x = z
        · subst hz; exact h1 hk
        · exact (key x hx hk hz).1
    · intro x hx y hy hkx hky e
      by_cases hxz : x = z
      · by_cases hyz : y = z
        · rw [hxz, hyz]
        · have hy : y ∈ args h (next (h z)) := by
            rcases List.mem_cons.mp hy with h | h
            · exact absurd h hyz
            · exact h
          exact absurd (by rw [← e, hxz]) (key y hy hky hyz).2
      · have hx : x ∈ args h (next (h z)) := by
          rcases List.mem_cons.mp hx with h | h
          · exact absurd h hxz
          · exact h
        by_cases hyz : y = z
        · exact absurd (by rw [e, hyz]) (key x hx hkx hxz).2
        · have hy : y ∈ args h (next (h z)) := by
            rcases List.mem_cons.mp hy with h | h
            · exact absurd h hyz
            · exact h
          exact i2 x hx y hy (by simp [hxz, hkx]) (by simp [hyz, hky]) e

end Eval

theorem cprob_cases {β γ : Type} [Finite β] (S : Set β) (f : β → γ) (W : β → Prop) (c : ℚ) (hc : 0 ≤ c)
    (h : ∀ y, {b ∈ S | f b = y}.Nonempty → cprob {b ∈ S | f b = y} W ≤ c) : cprob S W ≤ c := by
  classical
  have : Fintype β := Fintype.ofFinite β
  have count : ∀ A : Set β, A ⊆ S → (A.ncard : ℚ) = ∑ y ∈ Finset.univ.image f, ({b ∈ A | f b = y}.ncard : ℚ) := by
    intro A hA
    rw [Set.ncard_eq_toFinset_card', Finset.card_eq_sum_card_fiberwise (f := f) (t := Finset.univ.image f) (fun b _ => by simp)]
    push_cast
    refine Finset.sum_congr rfl fun y _ => ?_
    rw [Set.ncard_eq_toFinset_card']
    congr 2
    ext; simp
  unfold cprob
  refine div_le_of_le_mul₀ (by positivity) hc ?_
  rw [count _ (fun b hb => hb.1), count S subset_rfl, Finset.mul_sum]
  refine Finset.sum_le_sum fun y _ => ?_
  rcases Set.eq_empty_or_nonempty {b ∈ S | f b = y} with he | hne
  · have : {b | b ∈ {b | b ∈ S ∧ W b} ∧ f b = y} = ∅ := by
      ext b
      simp only [Set.mem_ofPred_eq, Set.mem_empty_iff_false, iff_false]
      rintro ⟨⟨h1, -⟩, h2⟩
      have : b ∈ {b ∈ S | f b = y} := ⟨h1, h2⟩
      rw [he] at this
      exact this
    rw [this]
    simp only [Set.ncard_empty, Nat.cast_zero]
    positivity
  · have := h y hne
    unfold cprob at this
    have hpos : (0 : ℚ) < ({b ∈ S | f b = y}.ncard : ℚ) := by
      exact_mod_cast (Set.ncard_pos (Set.toFinite _)).mpr hne
    rw [div_le_iff₀ hpos] at this
    refine le_trans (le_of_eq ?_) this
    congr 2
    ext b
    simp only [Set.mem_ofPred_eq]
    tauto

theorem cprob_or {β : Type} [Finite β] (S : Set β) (P Q : β → Prop) : cprob S (fun b => P b ∨ Q b) ≤ cprob S P + cprob S Q := by
  unfold cprob
  rw [← add_div]
  refine div_le_div_of_nonneg_right ?_ (by positivity)
  have : {b | b ∈ S ∧ (P b ∨ Q b)} = {b | b ∈ S ∧ P b} ∪ {b | b ∈ S ∧ Q b} := by
    ext b; simp only [Set.mem_ofPred_eq, Set.mem_union]; tauto
  rw [this]
  exact_mod_cast Set.ncard_union_le _ _

theorem cprob_mono {β : Type} [Finite β] (S : Set β) {P Q : β → Prop} (h : ∀ b ∈ S, P b → Q b) : cprob S P ≤ cprob S Q := by
  unfold cprob
  refine div_le_div_of_nonneg_right ?_ (by positivity)
  exact_mod_cast Set.ncard_le_ncard (fun b (hb : b ∈ S ∧ P b) => (⟨hb.1, h b hb.1 hb.2⟩ : b ∈ S ∧ Q b)) (Set.toFinite _)

theorem cprob_univ {β : Type} (W : β → Prop) : cprob Set.univ W = prob W := by
  unfold cprob prob
  rw [Set.ncard_univ]
  simp

/-- The value at a point that nothing is known about. -/
theorem cprob_point [DecidableEq D] [Finite D] [Finite C] [Nonempty C] (S : Set (D → C)) (x : D) (hS : ∀ F ∈ S, ∀ y, Function.update F x y ∈ S)
    (V : C → Prop) : cprob S (fun F => V (F x)) ≤ prob V := by
  have h := count_point S x {y | V y} hS
  unfold cprob prob
  have hC : (0 : ℚ) < (Nat.card C : ℚ) := by exact_mod_cast Nat.card_pos
  rcases Nat.eq_zero_or_pos S.ncard with h0 | h0
  · rw [h0]; simp; positivity
  · have h0 : (0 : ℚ) < (S.ncard : ℚ) := by exact_mod_cast h0
    rw [div_le_div_iff₀ h0 hC]
    refine le_of_eq ?_
    have h : (({F ∈ S | F x ∈ {y | V y}}.ncard : ℚ)) * Nat.card C = S.ncard * {y | V y}.ncard := by exact_mod_cast h
    rw [mul_comm ({k | V k}.ncard : ℚ)]
    exact h

theorem bad_le [DecidableEq D] [Finite D] [Finite C] [Nonempty C] (g : C → T) (ε : ℚ) (hε : 0 ≤ ε) (hg : ∀ t, prob (fun y => g y = t) ≤ ε)
    (t : Eval D C) (n : Nat) (ht : t.Within n) (known : List D) (seen : List T) (S : Set (D → C))
    (hS : ∀ F ∈ S, ∀ x ∉ known, ∀ y, Function.update F x y ∈ S) (N : Nat) (hN : seen.length + n ≤ N) :
    cprob S (fun h => t.Bad g h known seen) ≤ n * (N * ε) := by
  induction t generalizing n known seen S with
  | stop =>
    have : cprob S (fun h => (Eval.stop : Eval D C).Bad g h known seen) = 0 := by
      unfold cprob Eval.Bad
      simp
    rw [this]; positivity
  | ask x next ih =>
    obtain ⟨n, rfl, hn⟩ := ht
    refine le_trans (cprob_or _ _ _) ?_
    have h1 : cprob S (fun h => x ∉ known ∧ g (h x) ∈ seen) ≤ N * ε := by
      by_cases hx : x ∈ known
      · have : cprob S (fun h => x ∉ known ∧ g (h x) ∈ seen) = 0 := by
          unfold cprob; simp [hx]
        rw [this]; positivity
      · refine le_trans (cprob_mono S (Q := fun h => g (h x) ∈ seen) fun h _ hh => hh.2) ?_
        refine le_trans (cprob_point S x (fun F hF y => hS F hF x hx y) (fun y => g y ∈ seen)) ?_
        refine le_trans (prob_mem_list g ε hg seen) ?_
        refine mul_le_mul_of_nonneg_right ?_ hε
        exact_mod_cast (by omega : seen.length ≤ N)
    have h2 : cprob S (fun h => (next (h x)).Bad g h (x :: known) (g (h x) :: seen)) ≤ n * (N * ε) := by
      refine cprob_cases S (fun h => h x) _ _ (by positivity) fun y _ => ?_
      refine le_trans (le_of_eq (cprob_congr fun h hh => ?_)) (ih y n (hn y) (x :: known) (g y :: seen) {h ∈ S | h x = y} ?_ ?_)
      · rw [show h x = y from hh.2]
      · rintro F ⟨h1, h2⟩ z hz v
        simp only [List.mem_cons, not_or] at hz
        refine ⟨hS F h1 z hz.2 v, ?_⟩
        simp only [Function.update_of_ne (Ne.symm hz.1)]
        exact h2
      · simp; omega
    push_cast
    linarith

end Bad

section Rare
variable {C B K M T : Type} (iv : C) (ki ko : K → B) (blocks : M → List B) (g : C → T) (ob : T → B)

/-- Absorb `bs`, then go on. -/
def chainE : C → List B → Eval (C × B) C → Eval (C × B) C
  | _, [], next => next
  | s, b :: bs, next => .ask (s, b) fun y => chainE y bs next

/-- The inner hashes of the messages. -/
def msgsE (kin : C) : List M → Eval (C × B) C
  | [] => .stop
  | m :: ms => chainE kin (blocks m) (msgsE kin ms)

/-- Everything that HMAC evaluates, except for the last calls. -/
def allE (k : K) (ms : List M) : Eval (C × B) C := .ask (iv, ki k) fun kin => .ask (iv, ko k) fun _ => msgsE blocks kin ms

/-- The number of blocks. -/
def total (ms : List M) : Nat := (ms.map fun m => (blocks m).length).sum

theorem chainE_within (s : C) (bs : List B) (next : Eval (C × B) C) (n : Nat) (h : next.Within n) : (chainE s bs next).Within (bs.length + n) := by
  induction bs generalizing s with
  | nil => simpa [chainE] using h
  | cons b bs ih => exact ⟨bs.length + n, by simp; omega, fun y => ih y⟩

theorem msgsE_within (kin : C) (ms : List M) : (msgsE blocks kin ms).Within (total blocks ms) := by
  induction ms with
  | nil => trivial
  | cons m ms ih => exact chainE_within kin (blocks m) _ _ ih

theorem allE_within (k : K) (ms : List M) : (allE iv ki ko blocks k ms).Within (total blocks ms + 2) :=
  ⟨_, rfl, fun kin => ⟨_, rfl, fun _ => msgsE_within blocks kin ms⟩⟩

theorem chainE_args (h : C × B → C) (s : C) (bs : List B) (next : Eval (C × B) C) :
    (chainE s bs next).args h = calls h s bs ++ next.args h := by
  induction bs generalizing s with
  | nil => rfl
  | cons b bs ih => simp [chainE, Eval.args, calls, ih]

theorem msgsE_args (h : C × B → C) (kin : C) (ms : List M) : (msgsE blocks kin ms).args h = ms.flatMap fun m => calls h kin (blocks m) := by
  induction ms with
  | nil => rfl
  | cons m ms ih => simp [msgsE, chainE_args, ih]

theorem mem_allE (h : C × B → C) (k : K) (ms : List M) (x : C × B) : x ∈ (allE iv ki ko blocks k ms).args h ↔
    x = (iv, ki k) ∨ x = (iv, ko k) ∨ ∃ m ∈ ms, x ∈ calls h (h (iv, ki k)) (blocks m) := by
  simp [allE, Eval.args, msgsE_args]

theorem calls_prev (h : C × B → C) (s : C) (bs : List B) : ∀ x ∈ calls h s bs, x.1 = s ∨ ∃ y ∈ calls h s bs, x.1 = h y := by
  induction bs generalizing s with
  | nil => simp [calls]
  | cons b bs ih =>
    intro x hx
    rcases List.mem_cons.mp hx with rfl | hx
    · exact Or.inl rfl
    · right
      rcases ih _ x hx with e | ⟨y, hy, e⟩
      · exact ⟨(s, b), by simp [calls], e⟩
      · exact ⟨y, by simp [calls, hy], e⟩

theorem calls_snoc (h : C × B → C) (s : C) (bs : List B) (b : B) : calls h s (bs ++ [b]) = calls h s bs ++ [(chain h s bs, b)] := by
  induction bs generalizing s with
  | nil => rfl
  | cons b bs ih => simp [calls, chain, ih]

theorem chain_snoc (h : C × B → C) (s : C) (bs : List B) (b : B) : chain h s (bs ++ [b]) = h (chain h s bs, b) := by
  induction bs generalizing s with
  | nil => rfl
  | cons b bs ih => simp [chain, ih]

/-- With different values at different arguments, equal chaining values come from equal blocks. -/
theorem chain_inj {h : C × B → C} {iv : C} {a : B} (bs bs' : List B)
    (hne : ∀ x ∈ (iv, a) :: calls h (h (iv, a)) bs ++ calls h (h (iv, a)) bs', h x ≠ iv)
    (hinj : ∀ x ∈ (iv, a) :: calls h (h (iv, a)) bs ++ calls h (h (iv, a)) bs',
      ∀ y ∈ (iv, a) :: calls h (h (iv, a)) bs ++ calls h (h (iv, a)) bs', g (h x) = g (h y) → x = y)
    (e : g (chain h (h (iv, a)) bs) = g (chain h (h (iv, a)) bs')) : bs = bs' := by
  have hch : ∀ bs₀ : List B, chain h (h (iv, a)) bs₀ = h (iv, a) ∨ ∃ y ∈ calls h (h (iv, a)) bs₀, chain h (h (iv, a)) bs₀ = h y := by
    intro bs₀
    rcases List.eq_nil_or_concat bs₀ with rfl | ⟨l, b, rfl⟩
    · exact Or.inl rfl
    · rw [List.concat_eq_append, chain_snoc, calls_snoc]
      exact Or.inr ⟨_, by simp, rfl⟩
  induction bs using List.reverseRecOn generalizing bs' with
  | nil =>
    rcases List.eq_nil_or_concat bs' with rfl | ⟨l, b, rfl⟩
    · rfl
    · exfalso
      rw [List.concat_eq_append] at *
      rw [chain_snoc] at e
      have := hinj (iv, a) (by simp) (chain h (h (iv, a)) l, b) (by simp [calls_snoc]) e
      have h1 : iv = chain h (h (iv, a)) l := congrArg Prod.fst this
      rcases hch l with h2 | ⟨y, hy, h2⟩
      · exact hne (iv, a) (by simp) (by rw [← h2, ← h1])
      · exact hne y (by simp [calls_snoc, hy]) (by rw [← h2, ← h1])
  | append_singleton l b ih =>
    rcases List.eq_nil_or_concat bs' with rfl | ⟨l', b', rfl⟩
    · exfalso
      rw [chain_snoc] at e
      have := hinj (chain h (h (iv, a)) l, b) (by simp [calls_snoc]) (iv, a) (by simp) e
      have h1 : chain h (h (iv, a)) l = iv := congrArg Prod.fst this
      rcases hch l with h2 | ⟨y, hy, h2⟩
      · exact hne (iv, a) (by simp) (h2.symm.trans h1)
      · exact hne y (by simp [calls_snoc, hy]) (h2.symm.trans h1)
    · rw [List.concat_eq_append] at *
      rw [chain_snoc, chain_snoc] at e
      have := hinj (chain h (h (iv, a)) l, b) (by simp [calls_snoc]) (chain h (h (iv, a)) l', b') (by simp [calls_snoc]) e
      obtain ⟨h1, h2⟩ := Prod.mk.inj this
      have hsub : ∀ x, x ∈ (iv, a) :: calls h (h (iv, a)) l ++ calls h (h (iv, a)) l' →
          x ∈ (iv, a) :: calls h (h (iv, a)) (l ++ [b]) ++ calls h (h (iv, a)) (l' ++ [b']) := by
        intro x hx
        simp only [List.cons_append, List.mem_cons, List.mem_append, calls_snoc] at hx ⊢
        tauto
      rw [ih l' (fun x hx => hne x (hsub x hx)) (fun x hx y hy => hinj x (hsub x hx) y (hsub y hy)) (by rw [h1]), h2]

variable {iv ki ko blocks g ob}

theorem good_of (hb : Function.Injective blocks) (hob : Function.Injective ob) (hk : ∀ k, ki k ≠ ko k) {k : K} {h : C × B → C}
    {Q : List (C × B)} {Ms : List M} (h1 : (iv, ki k) ∉ Q) (h2 : (iv, ko k) ∉ Q)
    (hbad : ¬ (allE iv ki ko blocks k Ms).Bad g h [] (g iv :: Q.map fun x => g x.1)) : Good iv ki ko blocks g ob k h Q Ms := by
  obtain ⟨n1, n2⟩ := Eval.not_bad _ _ _ hbad
  have hin : ∀ m ∈ Ms, ∀ x ∈ (iv, ki k) :: calls h (h (iv, ki k)) (blocks m), x ∈ (allE iv ki ko blocks k Ms).args h := by
    intro m hm x hx
    rw [mem_allE]
    rcases List.mem_cons.mp hx with h | h
    · exact Or.inl h
    · exact Or.inr (Or.inr ⟨m, hm, h⟩)
  have hi : (iv, ki k) ∈ (allE iv ki ko blocks k Ms).args h := by rw [mem_allE]; exact Or.inl rfl
  have ho : (iv, ko k) ∈ (allE iv ki ko blocks k Ms).args h := by rw [mem_allE]; exact Or.inr (Or.inl rfl)
  have hne : ∀ x ∈ (allE iv ki ko blocks k Ms).args h, h x ≠ iv ∧ ∀ y ∈ Q, h x ≠ y.1 := by
    intro x hx
    have := n1 x hx (by simp)
    simp only [List.mem_cons, List.mem_map, not_or, not_exists, not_and] at this
    exact ⟨fun e => this.1 (by rw [e]), fun y hy e => this.2 y hy (by rw [e])⟩
  have hinj : ∀ x ∈ (allE iv ki ko blocks k Ms).args h, ∀ y ∈ (allE iv ki ko blocks k Ms).args h, g (h x) = g (h y) → x = y :=
    fun x hx y hy => n2 x hx y hy (by simp) (by simp)
  -- the chaining value of an argument of the inner hash
  have hprev : ∀ m ∈ Ms, ∀ x ∈ calls h (h (iv, ki k)) (blocks m), ∃ y, (y = (iv, ki k) ∨ y ∈ calls h (h (iv, ki k)) (blocks m)) ∧
      y ∈ (allE iv ki ko blocks k Ms).args h ∧ x.1 = h y := by
    intro m hm x hx
    rcases calls_prev h _ _ x hx with e | ⟨y, hy, e⟩
    · exact ⟨_, Or.inl rfl, hi, e⟩
    · exact ⟨y, Or.inr hy, hin m hm y (by simp [hy]), e⟩
  refine ⟨?_, ⟨h2, ?_⟩, ?_, ?_⟩
  · intro m hm x hx
    rcases List.mem_cons.mp hx with rfl | hx
    · exact ⟨h1, fun m' _ e => (hne _ ho).1 (congrArg Prod.fst e)⟩
    · obtain ⟨y, hy, hya, e⟩ := hprev m hm x hx
      refine ⟨fun hQ => (hne y hya).2 x hQ e.symm, fun m' _ e' => ?_⟩
      have : h (iv, ko k) = h y := (congrArg Prod.fst e').trans e
      have := hinj _ ho _ hya (by rw [this])
      rcases hy with rfl | hy
      · exact hk k (congrArg Prod.snd this).symm
      · obtain ⟨z, -, hza, ez⟩ := hprev m hm y hy
        exact (hne z hza).1 (by rw [← ez, ← this])
  · intro m' _ e
    exact (hne _ ho).1 (congrArg Prod.fst e)
  · intro m _ hQ
    exact (hne _ ho).2 _ hQ rfl
  · intro m hm m' hm' e
    have e := hob (congrArg Prod.snd e)
    refine hb (chain_inj g (h := h) (iv := iv) (a := ki k) _ _ (fun x hx => ?_) (fun x hx y hy => ?_) e)
    · refine (hne x ?_).1
      rcases List.mem_append.mp hx with hx | hx
      · exact hin m hm x hx
      · exact hin m' hm' x (by simp [hx])
    · refine hinj x ?_ y ?_
      · rcases List.mem_append.mp hx with hx | hx
        · exact hin m hm x hx
        · exact hin m' hm' x (by simp [hx])
      · rcases List.mem_append.mp hy with hx | hx
        · exact hin m hm y hx
        · exact hin m' hm' y (by simp [hx])

theorem prob_key [Finite K] [DecidableEq C] (kx : K → B) (hk : Function.Injective kx) (Q : List (C × B)) :
    prob (fun k => (iv, kx k) ∈ Q) ≤ Q.length / (Nat.card K : ℚ) := by
  have := prob_mem_list (fun k => (iv, kx k)) (1 / (Nat.card K : ℚ)) (fun t => ?_) Q
  · rwa [mul_one_div] at this
  · unfold prob
    refine div_le_div_of_nonneg_right ?_ (by positivity)
    have : {k | (iv, kx k) = t}.ncard ≤ 1 := by
      rw [Set.ncard_le_one_iff]
      rintro a b ha hb
      exact hk (congrArg Prod.snd (ha.trans hb.symm))
    exact_mod_cast this

/-- Accidents are rare. -/
theorem not_ok_le [Finite C] [Finite B] [Finite K] [Finite M] [Nonempty C] [Nonempty K] (X : Exper C B M T)
    (hb : Function.Injective blocks) (hob : Function.Injective ob) (hki : Function.Injective ki) (hko : Function.Injective ko)
    (hk : ∀ k, ki k ≠ ko k) (ε : ℚ) (hε : 0 ≤ ε) (hg : ∀ t, prob (fun y => g y = t) ≤ ε) (p n : Nat)
    (hQ : ∀ f t, (X.Q f t).length ≤ p) (hM : ∀ f t, total blocks (X.Ms f t) ≤ n) :
    prob (fun ω => ¬ Ok iv ki ko blocks g ob X ω) ≤ 2 * p / (Nat.card K : ℚ) + (n + 2) * (n + p + 3) * ε := by
  classical
  refine prob_prod_le _ _ fun b => ?_
  obtain ⟨f', G⟩ := b
  unfold Ok
  simp only
  have hQ := hQ f' (fun m => g (G m))
  have hM := hM f' (fun m => g (G m))
  generalize X.Q f' (fun m => g (G m)) = Q at *
  generalize X.Ms f' (fun m => g (G m)) = Ms at *
  have hp : (Q.length : ℚ) ≤ p := by exact_mod_cast hQ
  have hkey : ∀ kx : K → B, Function.Injective kx → prob (fun a : K × (C × B → C) => (iv, kx a.1) ∈ Q) ≤ p / (Nat.card K : ℚ) := by
    intro kx hkx
    rw [prob_fst (P := fun k => (iv, kx k) ∈ Q)]
    exact le_trans (prob_key kx hkx Q) (div_le_div_of_nonneg_right hp (by positivity))
  have hrun : prob (fun a : K × (C × B → C) => (allE iv ki ko blocks a.1 Ms).Bad g a.2 [] (g iv :: Q.map fun x => g x.1)) ≤
      (n + 2) * (n + p + 3) * ε := by
    rw [← prob_equiv (Equiv.prodComm (C × B → C) K)]
    refine prob_prod_le _ _ fun k => ?_
    have := bad_le g ε hε hg (allE iv ki ko blocks k Ms) (n + 2) ((allE_within iv ki ko blocks k Ms).mono (by omega)) []
      (g iv :: Q.map fun x => g x.1) Set.univ (fun _ _ _ _ _ => Set.mem_univ _) (n + p + 3) (by simp; omega)
    rw [cprob_univ] at this
    refine le_trans this (le_of_eq ?_)
    push_cast
    ring
  calc _ ≤ prob (fun a : K × (C × B → C) => ((iv, ki a.1) ∈ Q ∨ (iv, ko a.1) ∈ Q) ∨
        (allE iv ki ko blocks a.1 Ms).Bad g a.2 [] (g iv :: Q.map fun x => g x.1)) := by
        refine prob_mono fun a ha => ?_
        by_contra hcon
        push Not at hcon
        exact ha (good_of hb hob hk hcon.1.1 hcon.1.2 hcon.2)
    _ ≤ (p / (Nat.card K : ℚ) + p / (Nat.card K : ℚ)) + (n + 2) * (n + p + 3) * ε :=
        le_trans (prob_or _ _) (add_le_add (le_trans (prob_or _ _) (add_le_add (hkey ki hki) (hkey ko hko))) hrun)
    _ = _ := by ring

end Rare

end CryptoPure.Proofs.HmacIdeal
