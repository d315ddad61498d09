import Verif.Proofs.HmacIdeal

/-! # HMAC of a secret text under a public key, over a random compression function

`ext f k` is HMAC of the secret text `k`; `bi` and `bo` are the two key blocks, which everybody knows. An attacker that evaluates `f` cannot tell
`ext f k` from a random tag. -/

namespace CryptoPure.Proofs.ExtractIdeal
open Game HmacIdeal

section
variable {C B K T : Type} (iv : C) (bi bo : B) (blocks : K → List B) (g : C → T) (ob : T → B)

/-- The argument of the last call. -/
def fin (f : C × B → C) (k : K) : C × B := (f (iv, bo), ob (g (chain f (f (iv, bi)) (blocks k))))

/-- The tag. -/
def ext (f : C × B → C) (k : K) : T := g (f (fin iv bi bo blocks g ob f k))

variable {iv bi bo blocks g ob}

open Classical in
/-- `f` on `Q`, `h` elsewhere. -/
noncomputable def mix (Q : List (C × B)) (f h : C × B → C) : C × B → C := fun x => if x ∈ Q then f x else h x

theorem mix_mem {Q : List (C × B)} {f h : C × B → C} {x : C × B} (hx : x ∈ Q) : mix Q f h x = f x := by unfold mix; rw [if_pos hx]

theorem mix_not {Q : List (C × B)} {f h : C × B → C} {x : C × B} (hx : x ∉ Q) : mix Q f h x = h x := by unfold mix; rw [if_neg hx]

variable (iv bi bo blocks g ob)

/-- The last call is new. -/
structure Fresh (k : K) (h f : C × B → C) (Q : List (C × B)) : Prop where
  ki : (iv, bi) ∈ Q
  ko : (iv, bo) ∈ Q
  out : fin iv bi bo blocks g ob (mix Q f h) k ∉ Q
  new : fin iv bi bo blocks g ob (mix Q f h) k ∉ calls (mix Q f h) (f (iv, bi)) (blocks k)

open Classical in
/-- The function of the real game. -/
noncomputable def join (k : K) (h f : C × B → C) (c : C) (Q : List (C × B)) : C × B → C :=
  fun x => if x = fin iv bi bo blocks g ob (mix Q f h) k then c else mix Q f h x

variable {iv bi bo blocks g ob} {k : K} {h f : C × B → C} {c : C} {Q : List (C × B)}

theorem join_mem (hf : Fresh iv bi bo blocks g ob k h f Q) {x : C × B} (hx : x ∈ Q) : join iv bi bo blocks g ob k h f c Q x = f x := by
  unfold join
  have hne : x ≠ fin iv bi bo blocks g ob (mix Q f h) k := fun e => hf.out (e ▸ hx)
  rw [if_neg hne, mix_mem hx]

theorem join_fin : join iv bi bo blocks g ob k h f c Q (fin iv bi bo blocks g ob (mix Q f h) k) = c := by
  unfold join
  rw [if_pos rfl]

theorem fin_join (hf : Fresh iv bi bo blocks g ob k h f Q) :
    fin iv bi bo blocks g ob (join iv bi bo blocks g ob k h f c Q) k = fin iv bi bo blocks g ob (mix Q f h) k := by
  have e : chain (join iv bi bo blocks g ob k h f c Q) (f (iv, bi)) (blocks k) = chain (mix Q f h) (f (iv, bi)) (blocks k) := by
    refine chain_congr _ _ fun x hx => ?_
    unfold join
    rw [if_neg]
    rintro rfl
    exact hf.new hx
  rw [fin, join_mem hf hf.ki, join_mem hf hf.ko, e]
  rw [fin, mix_mem hf.ki, mix_mem hf.ko]

theorem ext_join (hf : Fresh iv bi bo blocks g ob k h f Q) : ext iv bi bo blocks g ob (join iv bi bo blocks g ob k h f c Q) k = g c := by
  unfold ext
  rw [fin_join hf, join_fin]

/-! ## The game -/

variable (iv bi bo) in
/-- The attacker, which first evaluates the two key blocks. -/
def full (A : T → Eval (C × B) C) (t : T) : Eval (C × B) C := .ask (iv, bi) fun _ => .ask (iv, bo) fun _ => A t

theorem args_congr {D C : Type} (f f' : D → C) (t : Eval D C) (h : ∀ x ∈ t.args f, f x = f' x) : t.args f = t.args f' := by
  induction t with
  | stop => rfl
  | ask x next ih =>
    rw [Eval.args, Eval.args]
    have e := h x (by simp [Eval.args])
    rw [← e, ih _ (fun y hy => h y (by simp [Eval.args, hy]))]

variable (iv bi bo blocks g ob) in
/-- No accident happens. -/
def Ok (A : K → T → Eval (C × B) C) (ω : (K × (C × B → C)) × ((C × B → C) × C)) : Prop :=
  Fresh iv bi bo blocks g ob ω.1.1 ω.1.2 ω.2.1 ((full iv bi bo (A ω.1.1) (g ω.2.2)).args ω.2.1)

variable (iv bi bo blocks g ob) in
/-- Exchange the values that the ideal game uses with those that the real game uses. -/
noncomputable def swap (A : K → T → Eval (C × B) C) (ω : (K × (C × B → C)) × ((C × B → C) × C)) : (K × (C × B → C)) × ((C × B → C) × C) :=
  ((ω.1.1, join iv bi bo blocks g ob ω.1.1 ω.1.2 ω.2.1 ω.2.2 ((full iv bi bo (A ω.1.1) (g ω.2.2)).args ω.2.1)),
   (mix ((full iv bi bo (A ω.1.1) (g ω.2.2)).args ω.2.1) ω.1.2 ω.2.1,
    ω.1.2 (fin iv bi bo blocks g ob (mix ((full iv bi bo (A ω.1.1) (g ω.2.2)).args ω.2.1) ω.2.1 ω.1.2) ω.1.1)))

variable {A : K → T → Eval (C × B) C}

theorem swap_real {ω : (K × (C × B → C)) × ((C × B → C) × C)} (hω : Ok iv bi bo blocks g ob A ω) :
    ext iv bi bo blocks g ob (swap iv bi bo blocks g ob A ω).1.2 (swap iv bi bo blocks g ob A ω).1.1 = g ω.2.2 ∧
    (∀ x ∈ (full iv bi bo (A ω.1.1) (g ω.2.2)).args ω.2.1, ω.2.1 x = (swap iv bi bo blocks g ob A ω).1.2 x) ∧
    (full iv bi bo (A ω.1.1) (g ω.2.2)).args ω.2.1 = (full iv bi bo (A ω.1.1) (g ω.2.2)).args (swap iv bi bo blocks g ob A ω).1.2 := by
  have h1 : ∀ x ∈ (full iv bi bo (A ω.1.1) (g ω.2.2)).args ω.2.1, ω.2.1 x = (swap iv bi bo blocks g ob A ω).1.2 x := fun x hx => (join_mem hω hx).symm
  exact ⟨ext_join hω, h1, args_congr _ _ _ h1⟩

theorem swap_inj {ω ω' : (K × (C × B → C)) × ((C × B → C) × C)} (hω : Ok iv bi bo blocks g ob A ω) (hω' : Ok iv bi bo blocks g ob A ω')
    (e : swap iv bi bo blocks g ob A ω = swap iv bi bo blocks g ob A ω') : ω = ω' := by
  obtain ⟨e1, -, e3⟩ := swap_real hω
  obtain ⟨e1', -, e3'⟩ := swap_real hω'
  have ek : ω.1.1 = ω'.1.1 := congrArg (fun x => x.1.1) e
  rw [e, e1'] at e1
  rw [← e1, e, ek, ← e3'] at e3
  obtain ⟨⟨k, h⟩, f, c⟩ := ω
  obtain ⟨⟨k', h'⟩, f', c'⟩ := ω'
  obtain rfl : k = k' := ek
  unfold swap at e
  unfold Ok at hω hω'
  simp only [Prod.mk.injEq] at e e1 e3 hω hω' ⊢
  rw [← e1] at e hω
  rw [e3] at e hω
  generalize (full iv bi bo (A k) (g c')).args f' = Q at *
  obtain ⟨⟨-, j⟩, m, r⟩ := e
  have hf : f = f' := by
    funext x
    by_cases hx : x ∈ Q
    · have := congrFun j x
      rwa [join_mem hω hx, join_mem hω' hx] at this
    · have := congrFun m x
      rwa [mix_not hx, mix_not hx] at this
  subst hf
  have hfin : fin iv bi bo blocks g ob (mix Q f h) k = fin iv bi bo blocks g ob (mix Q f h') k := by
    rw [← fin_join (c := c) hω, ← fin_join (c := c') hω', j]
  have hc : c = c' := by
    have := congrFun j (fin iv bi bo blocks g ob (mix Q f h) k)
    rw [join_fin, hfin, join_fin] at this
    exact this
  refine ⟨⟨trivial, ?_⟩, rfl, hc⟩
  funext x
  by_cases hx : x ∈ Q
  · have := congrFun m x
    rwa [mix_mem hx, mix_mem hx] at this
  by_cases hx' : x = fin iv bi bo blocks g ob (mix Q f h) k
  · rw [hx', r, ← hfin]
  · have := congrFun j x
    unfold join at this
    rwa [if_neg hx', if_neg (hfin ▸ hx'), mix_not hx, mix_not hx] at this

/-- The ideal game differs from the real game only by accidents. -/
theorem ideal_le_real [Finite C] [Finite B] [Finite K] [Nonempty C] [Nonempty K] (E : K → (C × B → C) → T → Prop)
    (hE : ∀ k f f' t, (∀ x ∈ (A k t).args f, f x = f' x) → E k f t → E k f' t) :
    prob (fun p : K × ((C × B → C) × C) => E p.1 p.2.1 (g p.2.2)) ≤
      prob (fun p : K × (C × B → C) => E p.1 p.2 (ext iv bi bo blocks g ob p.2 p.1)) + prob (fun ω => ¬ Ok iv bi bo blocks g ob A ω) := by
  have h0 : prob (fun p : K × ((C × B → C) × C) => E p.1 p.2.1 (g p.2.2)) =
      prob (fun ω : (K × (C × B → C)) × ((C × B → C) × C) => E ω.1.1 ω.2.1 (g ω.2.2)) := by
    rw [← prob_snd (α := C × B → C) (P := fun p : K × ((C × B → C) × C) => E p.1 p.2.1 (g p.2.2)),
      ← prob_equiv (((Equiv.prodComm K (C × B → C)).prodCongr (Equiv.refl ((C × B → C) × C))).trans (Equiv.prodAssoc _ _ _))]
    rfl
  rw [h0]
  rw [← prob_fst (β := (C × B → C) × C) (P := fun p : K × (C × B → C) => E p.1 p.2 (ext iv bi bo blocks g ob p.2 p.1))]
  refine le_trans ?_ (add_le_add_left (prob_inj (P := fun ω => E ω.1.1 ω.2.1 (g ω.2.2) ∧ Ok iv bi bo blocks g ob A ω)
    (swap iv bi bo blocks g ob A) ?_ ?_) _)
  · refine le_trans (prob_mono fun ω hω => ?_) (prob_or _ _)
    by_cases h : Ok iv bi bo blocks g ob A ω
    · exact Or.inl ⟨hω, h⟩
    · exact Or.inr h
  · rintro ω ⟨h1, h2⟩
    obtain ⟨e1, e2, -⟩ := swap_real h2
    show E ω.1.1 (swap iv bi bo blocks g ob A ω).1.2 (ext iv bi bo blocks g ob (swap iv bi bo blocks g ob A ω).1.2 (swap iv bi bo blocks g ob A ω).1.1)
    rw [e1]
    exact hE _ _ _ _ (fun x hx => e2 x (by simp [full, Eval.args, hx])) h1
  · rintro ω ω' ⟨-, h⟩ ⟨-, h'⟩ e
    exact swap_inj h h' e

/-! ## Accidents are rare -/

open Classical in
/-- The evaluations of `h` while absorbing `bs`. -/
noncomputable def walkE (Q : List (C × B)) (f : C × B → C) : C → List B → Eval (C × B) C
  | _, [] => .stop
  | s, b :: bs => if (s, b) ∈ Q then walkE Q f (f (s, b)) bs else .ask (s, b) fun y => walkE Q f y bs

theorem walkE_within (Q : List (C × B)) (f : C × B → C) (s : C) (bs : List B) : (walkE Q f s bs).Within bs.length := by
  induction bs generalizing s with
  | nil => trivial
  | cons b bs ih =>
    rw [walkE]
    split
    · exact (ih _).mono (by simp)
    · exact ⟨bs.length, rfl, fun y => ih y⟩

theorem mem_walkE (Q : List (C × B)) (f h : C × B → C) (s : C) (bs : List B) (x : C × B) (hx : x ∈ calls (mix Q f h) s bs) (hQ : x ∉ Q) :
    x ∈ (walkE Q f s bs).args h := by
  induction bs generalizing s with
  | nil => simp [calls] at hx
  | cons b bs ih =>
    rw [walkE]
    rcases List.mem_cons.mp hx with rfl | hx
    · rw [if_neg hQ]; simp [Eval.args]
    · split
      · next hs => rw [mix_mem hs] at hx; exact ih _ hx
      · next hs => rw [mix_not hs] at hx; simp [Eval.args, ih _ hx]

/-- If the last argument is in `Q`, then all are. -/
theorem all_mem {Q : List (C × B)} {f h : C × B → C} {s : C} (bs : List B) (b : B)
    (hn : ∀ x ∈ calls (mix Q f h) s bs, x ∉ Q → ∀ q ∈ Q, h x ≠ q.1) (hl : (chain (mix Q f h) s bs, b) ∈ Q) :
    ∀ x ∈ calls (mix Q f h) s (bs ++ [b]), x ∈ Q := by
  induction bs using List.reverseRecOn generalizing b with
  | nil => simpa [calls, chain] using hl
  | append_singleton l a ih =>
    have h1 : (chain (mix Q f h) s l, a) ∈ Q := by
      by_contra hQ
      rw [chain_snoc, mix_not hQ] at hl
      exact hn _ (by simp [calls_snoc]) hQ _ hl rfl
    intro x hx
    rw [calls_snoc, List.mem_append] at hx
    rcases hx with hx | hx
    · exact ih a (fun y hy => hn y (by simp [calls_snoc, hy])) h1 x hx
    · rw [List.mem_singleton] at hx
      rw [hx]; exact hl

theorem calls_congr {f h : C × B → C} (bs : List B) (s : C) (e : ∀ x ∈ calls h s bs, f x = h x) : calls f s bs = calls h s bs := by
  induction bs generalizing s with
  | nil => rfl
  | cons b bs ih =>
    rw [calls, calls, e (s, b) (by simp [calls]), ih _ (fun x hx => e x (by simp [calls, hx]))]

/-- The attacker saw nothing unlikely. -/
structure Clean (iv : C) (bi bo : B) (g : C → T) (f : C × B → C) (Q : List (C × B)) : Prop where
  ki : (iv, bi) ∈ Q
  ko : (iv, bo) ∈ Q
  ne : ∀ x ∈ Q, f x ≠ iv
  inj : ∀ x ∈ Q, ∀ y ∈ Q, g (f x) = g (f y) → x = y

variable [Nonempty T]

variable (bo g ob) in
/-- What the values of `h` must not be. -/
noncomputable def avoid (iv : C) (f : C × B → C) (Q : List (C × B)) : List T :=
  g (f (iv, bo)) :: (Q.map (fun q => g q.1) ++ Q.map fun q => Function.invFun ob q.2)

theorem fresh_of (hob : Function.Injective ob) (hne : bi ≠ bo) (hQ : Clean iv bi bo g f Q) (hk : blocks k ≠ [])
    (hall : ¬ ∀ x ∈ calls f (f (iv, bi)) (blocks k), x ∈ Q)
    (hbad : ¬ (walkE Q f (f (iv, bi)) (blocks k)).Bad g h [] (avoid bo g ob iv f Q)) : Fresh iv bi bo blocks g ob k h f Q := by
  obtain ⟨n1, -⟩ := Eval.not_bad _ _ _ hbad
  have hav : ∀ x ∈ calls (mix Q f h) (f (iv, bi)) (blocks k), x ∉ Q →
      g (h x) ≠ g (f (iv, bo)) ∧ (∀ q ∈ Q, h x ≠ q.1) ∧ ∀ q ∈ Q, ob (g (h x)) ≠ q.2 := by
    intro x hx hxQ
    have := n1 x (mem_walkE Q f h _ _ x hx hxQ) (by simp)
    simp only [avoid, List.mem_cons, List.mem_append, List.mem_map, not_or, not_exists, not_and] at this
    refine ⟨this.1, fun q hq e => this.2.1 q hq (by rw [e]), fun q hq e => this.2.2 q hq ?_⟩
    rw [← e]
    exact Function.leftInverse_invFun hob _
  obtain ⟨l, b, hlb⟩ : ∃ l b, blocks k = l ++ [b] := by
    rcases List.eq_nil_or_concat (blocks k) with e | ⟨l, b, e⟩
    · exact absurd e hk
    · exact ⟨l, b, by rw [e, List.concat_eq_append]⟩
  have hlast : (chain (mix Q f h) (f (iv, bi)) l, b) ∉ Q := by
    intro hl
    have h1 := all_mem l b (fun x hx hxQ => (hav x (by rw [hlb, calls_snoc]; simp [hx]) hxQ).2.1) hl
    rw [← hlb] at h1
    refine hall fun x hx => h1 x ?_
    rwa [← calls_congr (f := f) _ _ (fun x hx => (mix_mem (h1 x hx)).symm)]
  have hin : chain (mix Q f h) (f (iv, bi)) (blocks k) = h (chain (mix Q f h) (f (iv, bi)) l, b) := by
    rw [hlb, chain_snoc, mix_not hlast]
  have hmem : (chain (mix Q f h) (f (iv, bi)) l, b) ∈ calls (mix Q f h) (f (iv, bi)) (blocks k) := by
    rw [hlb, calls_snoc]; simp
  have hfin : fin iv bi bo blocks g ob (mix Q f h) k = (f (iv, bo), ob (g (h (chain (mix Q f h) (f (iv, bi)) l, b)))) := by
    unfold fin
    rw [mix_mem hQ.ki, mix_mem hQ.ko, hin]
  have hout : fin iv bi bo blocks g ob (mix Q f h) k ∉ Q := by
    rw [hfin]
    intro hq
    exact (hav _ hmem hlast).2.2 _ hq rfl
  have hiv : ∀ x ∈ calls (mix Q f h) (f (iv, bi)) (blocks k), x.1 ≠ iv := by
    intro x hx e
    rcases calls_prev _ _ _ x hx with h1 | ⟨y, hy, h1⟩
    · exact hQ.ne _ hQ.ki (h1.symm.trans e)
    · by_cases hyQ : y ∈ Q
      · rw [mix_mem hyQ] at h1
        exact hQ.ne _ hyQ (h1.symm.trans e)
      · rw [mix_not hyQ] at h1
        exact (hav y hy hyQ).2.1 _ hQ.ki (h1.symm.trans e)
  refine ⟨hQ.ki, hQ.ko, hout, fun hc => ?_⟩
  have e1 : (fin iv bi bo blocks g ob (mix Q f h) k).1 = f (iv, bo) := by rw [hfin]
  rcases calls_prev _ _ _ _ hc with h1 | ⟨y, hy, h1⟩
  · rw [e1] at h1
    exact hne (congrArg Prod.snd (hQ.inj _ hQ.ki _ hQ.ko (by rw [h1])))
  · rw [e1] at h1
    by_cases hyQ : y ∈ Q
    · rw [mix_mem hyQ] at h1
      have := hQ.inj _ hQ.ko _ hyQ (by rw [h1])
      exact hiv y hy (by rw [← this])
    · rw [mix_not hyQ] at h1
      exact (hav y hy hyQ).1 (by rw [h1])

theorem prob_exists_list {α γ : Type} [Finite α] (P : γ → α → Prop) (c : ℚ) (l : List γ) (h : ∀ q ∈ l, prob (P q) ≤ c) :
    prob (fun a => ∃ q ∈ l, P q a) ≤ l.length * c := by
  induction l with
  | nil => simp [prob]
  | cons q l ih =>
    have h1 := ih (fun q hq => h q (List.mem_cons_of_mem _ hq))
    have h2 := h q (List.mem_cons_self ..)
    refine le_trans (prob_mono (Q := fun a => P q a ∨ ∃ q ∈ l, P q a) fun a ha => ?_) (le_trans (prob_or _ _) ?_)
    · obtain ⟨q', hq', hp⟩ := ha
      rcases List.mem_cons.mp hq' with rfl | hq'
      · exact Or.inl hp
      · exact Or.inr ⟨q', hq', hp⟩
    · push_cast [List.length_cons]
      linarith

theorem chain_last (f : C × B → C) (s : C) (bs : List B) (h : bs ≠ []) : ∃ x ∈ calls f s bs, chain f s bs = f x := by
  rcases List.eq_nil_or_concat bs with e | ⟨l, b, rfl⟩
  · exact absurd e h
  · rw [List.concat_eq_append, chain_snoc, calls_snoc]
    exact ⟨_, by simp, rfl⟩

omit [Nonempty T] in
/-- The attacker has met all arguments for few texts only. -/
theorem prob_all [Finite K] (hk : ∀ k, blocks k ≠ []) (δ : ℚ) (hδ0 : 0 ≤ δ) (hδ : ∀ l, prob (fun k => blocks k = l) ≤ δ) (hQ : Clean iv bi bo g f Q) :
    prob (fun k => ∀ x ∈ calls f (f (iv, bi)) (blocks k), x ∈ Q) ≤ Q.length * δ := by
  refine le_trans (prob_mono (Q := fun k => ∃ q ∈ Q, (∀ x ∈ calls f (f (iv, bi)) (blocks k), x ∈ Q) ∧ chain f (f (iv, bi)) (blocks k) = f q) fun k h => ?_)
    (prob_exists_list _ δ Q fun q _ => ?_)
  · obtain ⟨x, hx, e⟩ := chain_last f (f (iv, bi)) (blocks k) (hk k)
    exact ⟨x, h x hx, h, e⟩
  · by_cases h0 : ∃ k0, (∀ x ∈ calls f (f (iv, bi)) (blocks k0), x ∈ Q) ∧ chain f (f (iv, bi)) (blocks k0) = f q
    · obtain ⟨k0, a0, b0⟩ := h0
      refine le_trans (prob_mono (Q := fun k => blocks k = blocks k0) fun k h => ?_) (hδ _)
      have hsub : ∀ x ∈ (iv, bi) :: calls f (f (iv, bi)) (blocks k) ++ calls f (f (iv, bi)) (blocks k0), x ∈ Q := by
        intro x hx
        simp only [List.cons_append, List.mem_cons, List.mem_append] at hx
        rcases hx with rfl | hx | hx
        · exact hQ.ki
        · exact h.1 x hx
        · exact a0 x hx
      exact chain_inj g _ _ (fun x hx => hQ.ne x (hsub x hx)) (fun x hx y hy => hQ.inj x (hsub x hx) y (hsub y hy)) (by rw [h.2, b0])
    · have : prob (fun k => (∀ x ∈ calls f (f (iv, bi)) (blocks k), x ∈ Q) ∧ chain f (f (iv, bi)) (blocks k) = f q) = 0 := by
        unfold prob
        have : {k | (∀ x ∈ calls f (f (iv, bi)) (blocks k), x ∈ Q) ∧ chain f (f (iv, bi)) (blocks k) = f q} = ∅ := by
          ext k
          simp only [Set.mem_ofPred_eq, Set.mem_empty_iff_false, iff_false]
          exact fun h => h0 ⟨k, h⟩
        rw [this]; simp
      rw [this]; exact hδ0

theorem args_length {D C : Type} (f : D → C) (t : Eval D C) (n : Nat) (h : t.Within n) : (t.args f).length ≤ n := by
  induction t generalizing n with
  | stop => simp [Eval.args]
  | ask x next ih =>
    obtain ⟨n, rfl, h⟩ := h
    have := ih (f x) n (h _)
    simp only [Eval.args, List.length_cons]
    omega

/-- The attacker has met all arguments for the secret text, and saw nothing else that is unlikely. -/
def Hit (iv : C) (bi bo : B) (blocks : K → List B) (g : C → T) (A : K → T → Eval (C × B) C) (k : K) (f : C × B → C) (t : T) : Prop :=
  Clean iv bi bo g f ((full iv bi bo (A k) t).args f) ∧ ∀ x ∈ calls f (f (iv, bi)) (blocks k), x ∈ (full iv bi bo (A k) t).args f

theorem prob_drop [Finite C] [Finite B] [Finite K] [Nonempty C] (P : K → (C × B → C) → C → Prop) :
    prob (fun q : K × ((C × B → C) × C) => P q.1 q.2.1 q.2.2) =
      prob (fun ω : (K × (C × B → C)) × ((C × B → C) × C) => P ω.1.1 ω.2.1 ω.2.2) := by
  rw [← prob_snd (α := C × B → C) (P := fun q : K × ((C × B → C) × C) => P q.1 q.2.1 q.2.2),
    ← prob_equiv (((Equiv.prodComm K (C × B → C)).prodCongr (Equiv.refl ((C × B → C) × C))).trans (Equiv.prodAssoc _ _ _))]
  rfl

theorem full_within {p : Nat} (hA : ∀ k t, (A k t).Within p) (k : K) (t : T) : (full iv bi bo (A k) t).Within (p + 2) :=
  ⟨_, rfl, fun _ => ⟨_, rfl, fun _ => hA k t⟩⟩

/-- Rearrange the samples. -/
def perm1 (C B K : Type) : (C × B → C) × ((K × (C × B → C)) × C) ≃ (K × (C × B → C)) × ((C × B → C) × C) where
  toFun x := (x.2.1, (x.1, x.2.2))
  invFun x := (x.2.1, (x.1, x.2.2))
  left_inv _ := rfl
  right_inv _ := rfl

/-- Rearrange the samples. -/
def perm2 (C B K : Type) : (C × B → C) × (K × ((C × B → C) × C)) ≃ (K × (C × B → C)) × ((C × B → C) × C) where
  toFun x := ((x.2.1, x.1), x.2.2)
  invFun x := (x.1.2, (x.1.1, x.2))
  left_inv _ := rfl
  right_inv _ := rfl

theorem coll_le [Finite C] [Finite B] [Finite K] [Nonempty C] [Nonempty K] (ε : ℚ) (hε : 0 ≤ ε) (hg : ∀ t, prob (fun y => g y = t) ≤ ε) (p : Nat)
    (hA : ∀ k t, (A k t).Within p) :
    prob (fun ω : (K × (C × B → C)) × ((C × B → C) × C) => (full iv bi bo (A ω.1.1) (g ω.2.2)).Bad g ω.2.1 [] [g iv]) ≤ (p + 2) * (p + 3) * ε := by
  classical
  rw [← prob_equiv (perm1 C B K)]
  refine prob_prod_le _ _ fun c => ?_
  have := bad_le g ε hε hg (full iv bi bo (A c.1.1) (g c.2)) (p + 2) (full_within hA _ _) [] [g iv] Set.univ (fun _ _ _ _ _ => Set.mem_univ _) (p + 3) (by simp; omega)
  rw [cprob_univ] at this
  refine le_trans this (le_of_eq ?_)
  push_cast
  ring

theorem walk_le [Finite C] [Finite B] [Finite K] [Nonempty C] [Nonempty K] (ε : ℚ) (hε : 0 ≤ ε) (hg : ∀ t, prob (fun y => g y = t) ≤ ε) (p n : Nat)
    (hA : ∀ k t, (A k t).Within p) (hn : ∀ k, (blocks k).length ≤ n) :
    prob (fun ω : (K × (C × B → C)) × ((C × B → C) × C) =>
      (walkE ((full iv bi bo (A ω.1.1) (g ω.2.2)).args ω.2.1) ω.2.1 (ω.2.1 (iv, bi)) (blocks ω.1.1)).Bad g ω.1.2 []
        (avoid bo g ob iv ω.2.1 ((full iv bi bo (A ω.1.1) (g ω.2.2)).args ω.2.1))) ≤ n * (n + 2 * p + 5) * ε := by
  classical
  rw [← prob_equiv (perm2 C B K)]
  refine prob_prod_le _ _ fun b => ?_
  obtain ⟨k, f, c⟩ := b
  show prob (fun h => (walkE ((full iv bi bo (A k) (g c)).args f) f (f (iv, bi)) (blocks k)).Bad g h []
      (avoid bo g ob iv f ((full iv bi bo (A k) (g c)).args f))) ≤ _
  have hl := args_length f _ _ (full_within (iv := iv) (bi := bi) (bo := bo) hA k (g c))
  generalize (full iv bi bo (A k) (g c)).args f = Q at *
  have := bad_le g ε hε hg (walkE Q f (f (iv, bi)) (blocks k)) n ((walkE_within Q f _ _).mono (hn k)) [] (avoid bo g ob iv f Q) Set.univ
    (fun _ _ _ _ _ => Set.mem_univ _) (n + 2 * p + 5) (by simp [avoid]; omega)
  rw [cprob_univ] at this
  refine le_trans this (le_of_eq ?_)
  push_cast
  ring

theorem ok_of (hob : Function.Injective ob) (hne : bi ≠ bo) (hk : ∀ k, blocks k ≠ []) (ω : (K × (C × B → C)) × ((C × B → C) × C))
    (c1 : ¬ Hit iv bi bo blocks g A ω.1.1 ω.2.1 (g ω.2.2)) (c2 : ¬ (full iv bi bo (A ω.1.1) (g ω.2.2)).Bad g ω.2.1 [] [g iv])
    (c3 : ¬ (walkE ((full iv bi bo (A ω.1.1) (g ω.2.2)).args ω.2.1) ω.2.1 (ω.2.1 (iv, bi)) (blocks ω.1.1)).Bad g ω.1.2 []
        (avoid bo g ob iv ω.2.1 ((full iv bi bo (A ω.1.1) (g ω.2.2)).args ω.2.1))) : Ok iv bi bo blocks g ob A ω := by
  have hQ : Clean iv bi bo g ω.2.1 ((full iv bi bo (A ω.1.1) (g ω.2.2)).args ω.2.1) := by
    obtain ⟨n1, n2⟩ := Eval.not_bad _ _ _ c2
    refine ⟨by simp [full, Eval.args], by simp [full, Eval.args], fun x hx e => ?_, fun x hx y hy => n2 x hx y hy (by simp) (by simp)⟩
    exact n1 x hx (by simp) (by simp [e])
  exact fresh_of hob hne hQ (hk _) (fun hall => c1 ⟨hQ, hall⟩) c3

/-- Accidents are rare, unless the attacker absorbs the secret text. -/
theorem not_ok_le_hit [Finite C] [Finite B] [Finite K] [Nonempty C] [Nonempty K] (hob : Function.Injective ob) (hne : bi ≠ bo) (hk : ∀ k, blocks k ≠ [])
    (ε : ℚ) (hε : 0 ≤ ε) (hg : ∀ t, prob (fun y => g y = t) ≤ ε) (p n : Nat)
    (hA : ∀ k t, (A k t).Within p) (hn : ∀ k, (blocks k).length ≤ n) :
    prob (fun ω => ¬ Ok iv bi bo blocks g ob A ω) ≤
      prob (fun q : K × ((C × B → C) × C) => Hit iv bi bo blocks g A q.1 q.2.1 (g q.2.2)) + ((p + 2) * (p + 3) + n * (n + 2 * p + 5)) * ε := by
  have h0 := prob_drop (fun k f c => Hit iv bi bo blocks g A k f (g c))
  have h1 := coll_le (iv := iv) (bi := bi) (bo := bo) (A := A) ε hε hg p hA
  have h2 := walk_le (iv := iv) (bi := bi) (bo := bo) (ob := ob) (A := A) ε hε hg p n hA hn
  rw [h0]
  have h3 := add_le_add h1 h2
  have h4 := le_trans (prob_or _ _) h3
  have h5 := le_trans (prob_or (fun ω : (K × (C × B → C)) × ((C × B → C) × C) => Hit iv bi bo blocks g A ω.1.1 ω.2.1 (g ω.2.2)) _) (add_le_add (le_refl _) h4)
  refine le_trans (le_trans (prob_mono fun ω hω => ?_) h5) (le_of_eq (by ring))
  by_contra hcon
  rw [not_or, not_or] at hcon
  exact hω (ok_of hob hne hk ω hcon.1 hcon.2.1 hcon.2.2)

omit [Nonempty T] in
/-- An attacker that knows nothing about the text does not absorb it. -/
theorem hit_le [Finite C] [Finite B] [Finite K] [Nonempty C] (hk : ∀ k, blocks k ≠ []) (δ : ℚ) (hδ0 : 0 ≤ δ) (hδ : ∀ l, prob (fun k => blocks k = l) ≤ δ)
    (A : T → Eval (C × B) C) (p : Nat) (hA : ∀ t, (A t).Within p) :
    prob (fun q : K × ((C × B → C) × C) => Hit iv bi bo blocks g (fun _ => A) q.1 q.2.1 (g q.2.2)) ≤ (p + 2) * δ := by
  refine prob_prod_le _ _ fun b => ?_
  obtain ⟨f, c⟩ := b
  have hl := args_length f _ _ (show (full iv bi bo A (g c)).Within (p + 2) from ⟨_, rfl, fun _ => ⟨_, rfl, fun _ => hA _⟩⟩)
  have hl' : (((full iv bi bo A (g c)).args f).length : ℚ) ≤ p + 2 := by exact_mod_cast hl
  by_cases hQ : Clean iv bi bo g f ((full iv bi bo A (g c)).args f)
  · refine le_trans (prob_mono fun k hk => hk.2) ((prob_all hk δ hδ0 hδ hQ).trans (mul_le_mul_of_nonneg_right hl' hδ0))
  · have : prob (fun k => Hit iv bi bo blocks g (fun _ => A) k f (g c)) = 0 := by
      unfold prob Hit
      simp [hQ]
    show prob (fun k => Hit iv bi bo blocks g (fun _ => A) k f (g c)) ≤ _
    rw [this]; positivity

end

end CryptoPure.Proofs.ExtractIdeal
