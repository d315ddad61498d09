import Verif.Proofs.ExtractIdeal
import Verif.Proofs.ShaIdeal

/-! # The chaining value after a secret text, over a random compression function

The blocks of the secret text are `init k ++ [lst k]`. Who evaluates `f` cannot tell the chaining value after them from a random one. -/

namespace CryptoPure.Proofs.ExtendIdeal
open Game HmacIdeal ExtractIdeal ShaIdeal

section
variable {C B K T : Type} (iv : C) (init : K → List B) (lst : K → B)

/-- The argument of the last call. -/
def last (f : C × B → C) (k : K) : C × B := (chain f iv (init k), lst k)

/-- The last call is new. -/
structure New (k : K) (h f : C × B → C) (Q : List (C × B)) : Prop where
  out : last iv init lst (mix Q f h) k ∉ Q
  new : last iv init lst (mix Q f h) k ∉ calls (mix Q f h) iv (init k)

open Classical in
/-- The function of the real game. -/
noncomputable def glue (k : K) (h f : C × B → C) (c : C) (Q : List (C × B)) : C × B → C :=
  fun x => if x = last iv init lst (mix Q f h) k then c else mix Q f h x

variable {iv init lst} {k : K} {h f : C × B → C} {c : C} {Q : List (C × B)}

theorem glue_mem (hf : New iv init lst k h f Q) {x : C × B} (hx : x ∈ Q) : glue iv init lst k h f c Q x = f x := by
  unfold glue
  have hne : x ≠ last iv init lst (mix Q f h) k := fun e => hf.out (e ▸ hx)
  rw [if_neg hne, mix_mem hx]

theorem glue_last : glue iv init lst k h f c Q (last iv init lst (mix Q f h) k) = c := by
  unfold glue
  rw [if_pos rfl]

theorem last_glue (hf : New iv init lst k h f Q) : last iv init lst (glue iv init lst k h f c Q) k = last iv init lst (mix Q f h) k := by
  have e : chain (glue iv init lst k h f c Q) iv (init k) = chain (mix Q f h) iv (init k) := by
    refine HmacIdeal.chain_congr _ _ fun x hx => ?_
    unfold glue
    rw [if_neg]
    rintro rfl
    exact hf.new hx
  rw [last, e, last]

theorem value_glue (hf : New iv init lst k h f Q) : chain (glue iv init lst k h f c Q) iv (init k ++ [lst k]) = c := by
  rw [chain_snoc]
  have := last_glue (c := c) hf
  unfold last at this
  rw [this]
  exact glue_last

/-! ## The game -/

variable (iv init lst) in
/-- No accident happens. -/
def Fine (A : C → Eval (C × B) C) (ω : (K × (C × B → C)) × ((C × B → C) × C)) : Prop :=
  New iv init lst ω.1.1 ω.1.2 ω.2.1 ((A ω.2.2).args ω.2.1)

variable (iv init lst) in
/-- Exchange the values that the ideal game uses with those that the real game uses. -/
noncomputable def exchanged (A : C → Eval (C × B) C) (ω : (K × (C × B → C)) × ((C × B → C) × C)) : (K × (C × B → C)) × ((C × B → C) × C) :=
  ((ω.1.1, glue iv init lst ω.1.1 ω.1.2 ω.2.1 ω.2.2 ((A ω.2.2).args ω.2.1)),
   (mix ((A ω.2.2).args ω.2.1) ω.1.2 ω.2.1, ω.1.2 (last iv init lst (mix ((A ω.2.2).args ω.2.1) ω.2.1 ω.1.2) ω.1.1)))

variable {A : C → Eval (C × B) C}

theorem exchanged_real {ω : (K × (C × B → C)) × ((C × B → C) × C)} (hω : Fine iv init lst A ω) :
    chain (exchanged iv init lst A ω).1.2 iv (init ω.1.1 ++ [lst ω.1.1]) = ω.2.2 ∧
    (∀ x ∈ (A ω.2.2).args ω.2.1, ω.2.1 x = (exchanged iv init lst A ω).1.2 x) ∧
    (A ω.2.2).args ω.2.1 = (A ω.2.2).args (exchanged iv init lst A ω).1.2 := by
  have h1 : ∀ x ∈ (A ω.2.2).args ω.2.1, ω.2.1 x = (exchanged iv init lst A ω).1.2 x := fun x hx => (glue_mem hω hx).symm
  exact ⟨value_glue hω, h1, args_congr _ _ _ h1⟩

theorem exchanged_inj {ω ω' : (K × (C × B → C)) × ((C × B → C) × C)} (hω : Fine iv init lst A ω) (hω' : Fine iv init lst A ω')
    (e : exchanged iv init lst A ω = exchanged iv init lst A ω') : ω = ω' := by
  obtain ⟨e1, -, e3⟩ := exchanged_real hω
  obtain ⟨e1', -, e3'⟩ := exchanged_real hω'
  have ek : ω.1.1 = ω'.1.1 := congrArg (fun x => x.1.1) e
  rw [e, ek, e1'] at e1
  rw [← e1, e, ← e3'] at e3
  obtain ⟨⟨k, h⟩, f, c⟩ := ω
  obtain ⟨⟨k', h'⟩, f', c'⟩ := ω'
  obtain rfl : k = k' := ek
  obtain rfl : c' = c := e1
  unfold exchanged at e
  unfold Fine at hω hω'
  simp only [Prod.mk.injEq] at e e3 hω hω' ⊢
  rw [e3] at e hω
  generalize (A c').args f' = Q at *
  obtain ⟨⟨-, j⟩, m, r⟩ := e
  have hf : f = f' := by
    funext x
    by_cases hx : x ∈ Q
    · have := congrFun j x
      rwa [glue_mem hω hx, glue_mem hω' hx] at this
    · have := congrFun m x
      rwa [mix_not hx, mix_not hx] at this
  subst hf
  have hl : last iv init lst (mix Q f h) k = last iv init lst (mix Q f h') k := by
    rw [← last_glue (c := c') hω, ← last_glue (c := c') hω', j]
  refine ⟨⟨trivial, ?_⟩, rfl, trivial⟩
  funext x
  by_cases hx : x ∈ Q
  · have := congrFun m x
    rwa [mix_mem hx, mix_mem hx] at this
  by_cases hx' : x = last iv init lst (mix Q f h) k
  · rw [hx', r, ← hl]
  · have := congrFun j x
    unfold glue at this
    rwa [if_neg hx', if_neg (hl ▸ hx'), mix_not hx, mix_not hx] at this

/-- The real game differs from the ideal game only by accidents. -/
theorem real_le_ideal [Finite C] [Finite B] [Finite K] [Nonempty C] [Nonempty K] (E : (C × B → C) → C → Prop)
    (hE : ∀ f f' c, (∀ x ∈ (A c).args f, f x = f' x) → (E f c ↔ E f' c)) :
    prob (fun p : K × (C × B → C) => E p.2 (chain p.2 iv (init p.1 ++ [lst p.1]))) ≤
      prob (fun p : (C × B → C) × C => E p.1 p.2) + prob (fun ω => ¬ Fine iv init lst A ω) := by
  have h : prob (fun p : (C × B → C) × C => ¬ E p.1 p.2) ≤
      prob (fun p : K × (C × B → C) => ¬ E p.2 (chain p.2 iv (init p.1 ++ [lst p.1]))) + prob (fun ω => ¬ Fine iv init lst A ω) := by
    rw [← prob_snd (α := K × (C × B → C)) (P := fun p : (C × B → C) × C => ¬ E p.1 p.2)]
    rw [← prob_fst (β := (C × B → C) × C) (P := fun p : K × (C × B → C) => ¬ E p.2 (chain p.2 iv (init p.1 ++ [lst p.1])))]
    refine le_trans ?_ (add_le_add_left (prob_inj (P := fun ω => ¬ E ω.2.1 ω.2.2 ∧ Fine iv init lst A ω) (exchanged iv init lst A) ?_ ?_) _)
    · refine le_trans (prob_mono fun ω hω => ?_) (prob_or _ _)
      by_cases h : Fine iv init lst A ω
      · exact Or.inl ⟨hω, h⟩
      · exact Or.inr h
    · rintro ω ⟨h1, h2⟩ h3
      obtain ⟨e1, e2, -⟩ := exchanged_real h2
      refine h1 ((hE _ _ _ e2).mpr ?_)
      have e4 : (exchanged iv init lst A ω).1.1 = ω.1.1 := rfl
      rw [e4, e1] at h3
      exact h3
    · rintro ω ω' ⟨-, h⟩ ⟨-, h'⟩ e
      exact exchanged_inj h h' e
  rw [prob_not, prob_not] at h
  linarith

/-! ## Accidents are rare -/

theorem calls_split (f : C × B → C) (s : C) (bs : List B) (x : C × B) (hx : x ∈ calls f s bs) :
    ∃ l b r, bs = l ++ b :: r ∧ x = (chain f s l, b) := by
  induction bs generalizing s with
  | nil => simp [calls] at hx
  | cons b bs ih =>
    rcases List.mem_cons.mp hx with rfl | hx
    · exact ⟨[], b, bs, rfl, rfl⟩
    · obtain ⟨l, b', r, rfl, rfl⟩ := ih _ hx
      exact ⟨b :: l, b', r, rfl, rfl⟩

theorem calls_prefix (f : C × B → C) (s : C) (l r : List B) : ∀ x ∈ calls f s l, x ∈ calls f s (l ++ r) := by
  induction l generalizing s with
  | nil => simp [calls]
  | cons b l ih =>
    intro x hx
    rcases List.mem_cons.mp hx with rfl | hx
    · simp [calls]
    · simp only [List.cons_append, calls, List.mem_cons]
      exact Or.inr (ih _ x hx)

/-- The attacker saw nothing unlikely. -/
structure Plain (iv : C) (g : C → T) (f : C × B → C) (Q : List (C × B)) : Prop where
  ne : ∀ x ∈ Q, g (f x) ≠ g iv
  inj : ∀ x ∈ Q, ∀ y ∈ Q, g (f x) = g (f y) → x = y

/-- What the values of `h` must not be. -/
def taboo (iv : C) (g : C → T) (f : C × B → C) (Q : List (C × B)) : List T := g iv :: (Q.map (fun q => g q.1) ++ Q.map fun q => g (f q))

variable {g : C → T}

theorem new_of (hQ : Plain iv g f Q) (hall : ¬ ∀ x ∈ calls f iv (init k ++ [lst k]), x ∈ Q)
    (hbad : ¬ (walkE Q f iv (init k)).Bad g h [] (taboo iv g f Q)) : New iv init lst k h f Q := by
  obtain ⟨n1, n2⟩ := Eval.not_bad _ _ _ hbad
  have hav : ∀ x ∈ calls (mix Q f h) iv (init k), x ∉ Q → g (h x) ≠ g iv ∧ (∀ q ∈ Q, g (h x) ≠ g q.1) ∧ ∀ q ∈ Q, g (h x) ≠ g (f q) := by
    intro x hx hxQ
    have := n1 x (mem_walkE Q f h _ _ x hx hxQ) (by simp)
    simp only [taboo, List.mem_cons, List.mem_append, List.mem_map, not_or, not_exists, not_and] at this
    exact ⟨this.1, fun q hq e => this.2.1 q hq e.symm, fun q hq e => this.2.2 q hq e.symm⟩
  have hne : ∀ x ∈ calls (mix Q f h) iv (init k), g (mix Q f h x) ≠ g iv := by
    intro x hx
    by_cases hxQ : x ∈ Q
    · rw [mix_mem hxQ]; exact hQ.ne x hxQ
    · rw [mix_not hxQ]; exact (hav x hx hxQ).1
  have hinj : ∀ x ∈ calls (mix Q f h) iv (init k), ∀ y ∈ calls (mix Q f h) iv (init k), g (mix Q f h x) = g (mix Q f h y) → x = y := by
    intro x hx y hy
    by_cases hxQ : x ∈ Q <;> by_cases hyQ : y ∈ Q
    · rw [mix_mem hxQ, mix_mem hyQ]; exact hQ.inj x hxQ y hyQ
    · rw [mix_mem hxQ, mix_not hyQ]; exact fun e => absurd e.symm ((hav y hy hyQ).2.2 x hxQ)
    · rw [mix_not hxQ, mix_mem hyQ]; exact fun e => absurd e ((hav x hx hxQ).2.2 y hyQ)
    · rw [mix_not hxQ, mix_not hyQ]
      exact n2 x (mem_walkE Q f h _ _ x hx hxQ) y (mem_walkE Q f h _ _ y hy hyQ) (by simp) (by simp)
  constructor
  · intro hl
    have h1 := all_mem (init k) (lst k) (fun x hx hxQ q hq e => (hav x hx hxQ).2.1 q hq (by rw [e])) hl
    refine hall fun x hx => h1 x ?_
    rwa [← ExtractIdeal.calls_congr (f := f) _ _ (fun x hx => (mix_mem (h1 x hx)).symm)]
  · intro hc
    obtain ⟨l, b, r, e1, e2⟩ := calls_split _ _ _ _ hc
    have e3 : chain (mix Q f h) iv (init k) = chain (mix Q f h) iv l := congrArg Prod.fst e2
    have hsub : ∀ x ∈ calls (mix Q f h) iv l, x ∈ calls (mix Q f h) iv (init k) := by
      rw [e1]; exact calls_prefix _ _ _ _
    have := chain_inj_iv g (init k) l hne (fun x hx => hne x (hsub x hx)) (fun x hx y hy => hinj x hx y (hsub y hy)) (by rw [e3])
    have := congrArg List.length (this.symm.trans e1)
    simp at this

/-- The attacker has met all arguments for few texts only. -/
theorem prob_met [Finite K] (δ : ℚ) (hδ0 : 0 ≤ δ) (hδ : ∀ l, prob (fun k => init k ++ [lst k] = l) ≤ δ) (hQ : Plain iv g f Q) :
    prob (fun k => ∀ x ∈ calls f iv (init k ++ [lst k]), x ∈ Q) ≤ Q.length * δ := by
  refine le_trans (prob_mono (Q := fun k => ∃ q ∈ Q, (∀ x ∈ calls f iv (init k ++ [lst k]), x ∈ Q) ∧ chain f iv (init k ++ [lst k]) = f q) fun k h => ?_)
    (prob_exists_list _ δ Q fun q _ => ?_)
  · obtain ⟨x, hx, e⟩ := chain_last f iv (init k ++ [lst k]) (by simp)
    exact ⟨x, h x hx, h, e⟩
  · by_cases h0 : ∃ k0, (∀ x ∈ calls f iv (init k0 ++ [lst k0]), x ∈ Q) ∧ chain f iv (init k0 ++ [lst k0]) = f q
    · obtain ⟨k0, a0, b0⟩ := h0
      refine le_trans (prob_mono (Q := fun k => init k ++ [lst k] = init k0 ++ [lst k0]) fun k h => ?_) (hδ _)
      exact chain_inj_iv g _ _ (fun x hx => hQ.ne x (h.1 x hx)) (fun x hx => hQ.ne x (a0 x hx)) (fun x hx y hy => hQ.inj x (h.1 x hx) y (a0 y hy))
        (by rw [h.2, b0])
    · refine le_trans (prob_mono (Q := fun _ => False) fun k h => h0 ⟨k, h⟩) ?_
      unfold prob
      simpa using hδ0

/-- The attacker has met all arguments for the secret text, and saw nothing else that is unlikely. -/
def Met (iv : C) (init : K → List B) (lst : K → B) (g : C → T) (A : C → Eval (C × B) C) (k : K) (f : C × B → C) (c : C) : Prop :=
  Plain iv g f ((A c).args f) ∧ ∀ x ∈ calls f iv (init k ++ [lst k]), x ∈ (A c).args f

/-- **Accidents are rare.** -/
theorem not_fine_le [Finite C] [Finite B] [Finite K] [Nonempty C] [Nonempty K] (δ : ℚ) (hδ0 : 0 ≤ δ) (hδ : ∀ l, prob (fun k => init k ++ [lst k] = l) ≤ δ)
    (ε : ℚ) (hε : 0 ≤ ε) (hg : ∀ t, prob (fun y => g y = t) ≤ ε) (p n : Nat) (hA : ∀ c, (A c).Within p) (hn : ∀ k, (init k).length ≤ n) :
    prob (fun ω : (K × (C × B → C)) × ((C × B → C) × C) => ¬ Fine iv init lst A ω) ≤ p * δ + (p * (p + 1) + n * (n + 2 * p + 1)) * ε := by
  classical
  have h0 : prob (fun ω : (K × (C × B → C)) × ((C × B → C) × C) => Met iv init lst g A ω.1.1 ω.2.1 ω.2.2) ≤ p * δ := by
    rw [← prob_drop (fun k f c => Met iv init lst g A k f c)]
    refine prob_prod_le _ _ fun b => ?_
    obtain ⟨f, c⟩ := b
    have hl' : (((A c).args f).length : ℚ) ≤ p := by exact_mod_cast args_length f _ _ (hA c)
    show prob (fun k => Met iv init lst g A k f c) ≤ _
    by_cases hQ : Plain iv g f ((A c).args f)
    · exact le_trans (prob_mono fun k hk => hk.2) ((prob_met δ hδ0 hδ hQ).trans (mul_le_mul_of_nonneg_right hl' hδ0))
    · refine le_trans (prob_mono (Q := fun _ => False) fun k h => hQ h.1) ?_
      unfold prob
      simp only [Set.ofPred_false, Set.ncard_empty, Nat.cast_zero, zero_div]
      positivity
  have h1 : prob (fun ω : (K × (C × B → C)) × ((C × B → C) × C) => (A ω.2.2).Bad g ω.2.1 [] [g iv]) ≤ p * (p + 1) * ε := by
    rw [← prob_equiv (perm1 C B K)]
    refine prob_prod_le _ _ fun c => ?_
    have := bad_le g ε hε hg (A c.2) p (hA _) [] [g iv] Set.univ (fun _ _ _ _ _ => Set.mem_univ _) (p + 1) (by simp; omega)
    rw [cprob_univ] at this
    refine le_trans this (le_of_eq ?_)
    push_cast
    ring
  have h2 : prob (fun ω : (K × (C × B → C)) × ((C × B → C) × C) =>
      (walkE ((A ω.2.2).args ω.2.1) ω.2.1 iv (init ω.1.1)).Bad g ω.1.2 [] (taboo iv g ω.2.1 ((A ω.2.2).args ω.2.1))) ≤ n * (n + 2 * p + 1) * ε := by
    rw [← prob_equiv (perm2 C B K)]
    refine prob_prod_le _ _ fun b => ?_
    obtain ⟨k, f, c⟩ := b
    show prob (fun h => (walkE ((A c).args f) f iv (init k)).Bad g h [] (taboo iv g f ((A c).args f))) ≤ _
    have hl := args_length f _ _ (hA c)
    generalize (A c).args f = Q at *
    have := bad_le g ε hε hg (walkE Q f iv (init k)) n ((walkE_within Q f _ _).mono (hn k)) [] (taboo iv g f Q) Set.univ
      (fun _ _ _ _ _ => Set.mem_univ _) (n + 2 * p + 1) (by simp [taboo]; omega)
    rw [cprob_univ] at this
    refine le_trans this (le_of_eq ?_)
    push_cast
    ring
  have h4 := le_trans (prob_or _ _) (add_le_add h1 h2)
  have h5 := le_trans (prob_or (fun ω : (K × (C × B → C)) × ((C × B → C) × C) => Met iv init lst g A ω.1.1 ω.2.1 ω.2.2) _) (add_le_add h0 h4)
  refine le_trans (le_trans (prob_mono fun ω hω => ?_) h5) (le_of_eq (by ring))
  by_contra hcon
  rw [not_or, not_or] at hcon
  obtain ⟨c1, c2, c3⟩ := hcon
  refine hω (new_of (g := g) ?_ ?_ c3)
  · obtain ⟨n1, n2⟩ := Eval.not_bad _ _ _ c2
    exact ⟨fun x hx => by simpa using n1 x hx (by simp), fun x hx y hy => n2 x hx y hy (by simp) (by simp)⟩
  · intro hall
    refine c1 ⟨?_, hall⟩
    obtain ⟨n1, n2⟩ := Eval.not_bad _ _ _ c2
    exact ⟨fun x hx => by simpa using n1 x hx (by simp), fun x hx y hy => n2 x hx y hy (by simp) (by simp)⟩

end

end CryptoPure.Proofs.ExtendIdeal
