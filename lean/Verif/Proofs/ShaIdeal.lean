import Verif.Proofs.HmacSha
import Verif.Spec.KdfGame

/-! # The hash of src/sha2.rs over a random compression function: collisions and preimages -/

namespace CryptoPure.Proofs.ShaIdeal
open CryptoPure.Model Spec.Sha2 Game HmacIdeal HmacSha Switch

/-! ## Hitting fixed values -/

section Hits
variable {D C T : Type}

/-- At an argument outside `known`, the value is one of those in `ds`, up to `g`. -/
def Hits (g : C → T) (h : D → C) (ds : List T) : Eval D C → List D → Prop
  | .stop, _ => False
  | .ask x next, known => (x ∉ known ∧ g (h x) ∈ ds) ∨ Hits g h ds (next (h x)) (x :: known)

theorem not_hits {g : C → T} {h : D → C} {ds : List T} (t : Eval D C) (known : List D) (hb : ¬ Hits g h ds t known) :
    ∀ x ∈ t.args h, x ∉ known → g (h x) ∉ ds := by
  induction t generalizing known with
  | stop => simp [Eval.args]
  | ask z next ih =>
    unfold Hits at hb
    push Not at hb
    intro x hx hk
    by_cases hz : x = z
    · subst hz; exact hb.1 hk
    · rcases List.mem_cons.mp hx with h | h
      · exact absurd h hz
      · exact ih _ _ hb.2 x h (by simp [hz, hk])

theorem hits_le [DecidableEq D] [Finite D] [Finite C] [Nonempty C] (g : C → T) (ε : ℚ) (hε : 0 ≤ ε) (hg : ∀ t, prob (fun y => g y = t) ≤ ε)
    (ds : List T) (t : Eval D C) (n : Nat) (ht : t.Within n) (known : List D) (S : Set (D → C))
    (hS : ∀ F ∈ S, ∀ x ∉ known, ∀ y, Function.update F x y ∈ S) :
    cprob S (fun h => Hits g h ds t known) ≤ n * (ds.length * ε) := by
  induction t generalizing n known S with
  | stop =>
    have : cprob S (fun h => Hits g h ds (Eval.stop : Eval D C) known) = 0 := by
      unfold cprob Hits
      simp
    rw [this]; positivity
  | ask x next ih =>
    obtain ⟨n, rfl, hn⟩ := ht
    refine le_trans (cprob_or _ _ _) ?_
    have h1 : cprob S (fun h => x ∉ known ∧ g (h x) ∈ ds) ≤ ds.length * ε := by
      by_cases hx : x ∈ known
      · have : cprob S (fun h => x ∉ known ∧ g (h x) ∈ ds) = 0 := by
          unfold cprob; simp [hx]
        rw [this]; positivity
      · refine le_trans (cprob_mono S (Q := fun h => g (h x) ∈ ds) fun h _ hh => hh.2) ?_
        exact le_trans (cprob_point S x (fun F hF y => hS F hF x hx y) (fun y => g y ∈ ds)) (prob_mem_list g ε hg ds)
    have h2 : cprob S (fun h => Hits g h ds (next (h x)) (x :: known)) ≤ n * (ds.length * ε) := by
      refine cprob_cases S (fun h => h x) _ _ (by positivity) fun y _ => ?_
      refine le_trans (le_of_eq (cprob_congr fun h hh => ?_)) (ih y n (hn y) (x :: known) {h ∈ S | h x = y} ?_)
      · rw [show h x = y from hh.2]
      · rintro F ⟨h1, h2⟩ z hz v
        simp only [List.mem_cons, not_or] at hz
        refine ⟨hS F h1 z hz.2 v, ?_⟩
        simp only [Function.update_of_ne (Ne.symm hz.1)]
        exact h2
    push_cast
    linarith

end Hits

/-! ## A known message, then an attack -/

section Second
variable {C B T : Type}

/-- Absorbing `bs` from `s` gives a value (up to `g`) that was seen before; or the computation `t`, later, gives at a new argument one of those. -/
def Repeats (g : C → T) (h : C × B → C) (t : Eval (C × B) C) : C → List B → List (C × B) → List T → Prop
  | _, [], known, seen => Hits g h seen t known
  | s, b :: bs, known, seen => ((s, b) ∉ known ∧ g (h (s, b)) ∈ seen) ∨
      Repeats g h t (h (s, b)) bs ((s, b) :: known) (g (h (s, b)) :: seen)

theorem not_repeats {g : C → T} {h : C × B → C} (t : Eval (C × B) C) (s : C) (bs : List B) (known : List (C × B)) (seen : List T)
    (hb : ¬ Repeats g h t s bs known seen) :
    (∀ x ∈ calls h s bs, x ∉ known → g (h x) ∉ seen) ∧
    (∀ x ∈ calls h s bs, ∀ y ∈ calls h s bs, x ∉ known → y ∉ known → g (h x) = g (h y) → x = y) ∧
    ∀ x ∈ t.args h, x ∉ known → x ∉ calls h s bs → g (h x) ∉ seen ∧ ∀ y ∈ calls h s bs, g (h x) ≠ g (h y) := by
  induction bs generalizing s known seen with
  | nil =>
    refine ⟨by simp [calls], by simp [calls], fun x hx hk _ => ⟨not_hits t known hb x hx hk, by simp [calls]⟩⟩
  | cons b bs ih =>
    unfold Repeats at hb
    push Not at hb
    obtain ⟨h1, h2⟩ := hb
    obtain ⟨i1, i2, i3⟩ := ih _ _ _ h2
    have key : ∀ x ∈ calls h (h (s, b)) bs, x ∉ known → x ≠ (s, b) → g (h x) ∉ seen ∧ g (h x) ≠ g (h (s, b)) := by
      intro x hx hk hz
      have := i1 x hx (by simp [hz, hk])
      simp only [List.mem_cons, not_or] at this
      exact ⟨this.2, this.1⟩
    have hmem : ∀ x ∈ calls h s (b :: bs), x ≠ (s, b) → x ∈ calls h (h (s, b)) bs := by
      intro x hx hz
      rcases List.mem_cons.mp hx with h | h
      · exact absurd h hz
      · exact h
    refine ⟨?_, ?_, ?_⟩
    · intro x hx hk
      by_cases hz : x = (s, b)
      · subst hz; exact h1 hk
      · exact (key x (hmem x hx hz) hk hz).1
    · intro x hx y hy hkx hky e
      by_cases hxz : x = (s, b)
      · by_cases hyz : y = (s, b)
        · rw [hxz, hyz]
        · exact absurd (by rw [← e, hxz]) (key y (hmem y hy hyz) hky hyz).2
      · by_cases hyz : y = (s, b)
        · exact absurd (by rw [e, hyz]) (key x (hmem x hx hxz) hkx hxz).2
        · exact i2 x (hmem x hx hxz) y (hmem y hy hyz) (by simp [hxz, hkx]) (by simp [hyz, hky]) e
    · intro x hx hk hc
      have hx' : x ≠ (s, b) := fun e => hc (by rw [e]; simp [calls])
      have hc' : x ∉ calls h (h (s, b)) bs := fun h' => hc (by simp [calls, h'])
      obtain ⟨j1, j2⟩ := i3 x hx (by simp [hx', hk]) hc'
      simp only [List.mem_cons, not_or] at j1
      refine ⟨j1.2, fun y hy => ?_⟩
      by_cases hyz : y = (s, b)
      · rw [hyz]; exact j1.1
      · exact j2 y (hmem y hy hyz)

theorem repeats_le [DecidableEq (C × B)] [Finite C] [Finite B] [Nonempty C] (g : C → T) (ε : ℚ) (hε : 0 ≤ ε) (hg : ∀ t, prob (fun y => g y = t) ≤ ε)
    (t : Eval (C × B) C) (n : Nat) (ht : t.Within n) (s : C) (bs : List B) (known : List (C × B)) (seen : List T) (S : Set (C × B → C))
    (hS : ∀ F ∈ S, ∀ x ∉ known, ∀ y, Function.update F x y ∈ S) (N : Nat) (hN : seen.length + bs.length ≤ N) :
    cprob S (fun h => Repeats g h t s bs known seen) ≤ (bs.length + n) * (N * ε) := by
  induction bs generalizing s known seen S with
  | nil =>
    refine le_trans (hits_le g ε hε hg seen t n ht known S hS) ?_
    simp only [List.length_nil, Nat.cast_zero, zero_add, Nat.add_zero] at hN ⊢
    refine mul_le_mul_of_nonneg_left (mul_le_mul_of_nonneg_right ?_ hε) (by positivity)
    exact_mod_cast hN
  | cons b bs ih =>
    simp only [List.length_cons] at hN
    refine le_trans (cprob_or _ _ _) ?_
    have h1 : cprob S (fun h => (s, b) ∉ known ∧ g (h (s, b)) ∈ seen) ≤ N * ε := by
      by_cases hx : (s, b) ∈ known
      · have : cprob S (fun h => (s, b) ∉ known ∧ g (h (s, b)) ∈ seen) = 0 := by
          unfold cprob; simp [hx]
        rw [this]; positivity
      · refine le_trans (cprob_mono S (Q := fun h => g (h (s, b)) ∈ seen) fun h _ hh => hh.2) ?_
        refine le_trans (cprob_point S (s, b) (fun F hF y => hS F hF _ hx y) (fun y => g y ∈ seen)) ?_
        refine le_trans (prob_mem_list g ε hg seen) ?_
        refine mul_le_mul_of_nonneg_right ?_ hε
        exact_mod_cast (by omega : seen.length ≤ N)
    have h2 : cprob S (fun h => Repeats g h t (h (s, b)) bs ((s, b) :: known) (g (h (s, b)) :: seen)) ≤ (bs.length + n) * (N * ε) := by
      refine cprob_cases S (fun h => h (s, b)) _ _ (by positivity) fun y _ => ?_
      refine le_trans (le_of_eq (cprob_congr fun h hh => ?_)) (ih y ((s, b) :: known) (g y :: seen) {h ∈ S | h (s, b) = y} ?_ ?_)
      · rw [show h (s, b) = y from hh.2]
      · rintro F ⟨h1, h2⟩ z hz v
        simp only [List.mem_cons, not_or] at hz
        refine ⟨hS F h1 z hz.2 v, ?_⟩
        simp only [Function.update_of_ne (Ne.symm hz.1)]
        exact h2
      · simp; omega
    simp only [List.length_cons]
    push_cast
    linarith

/-- With different values at different arguments, and none equal to the initial value, equal chaining values come from equal blocks. -/
theorem chain_inj_iv {h : C × B → C} {iv : C} (g : C → T) (bs bs' : List B)
    (hne : ∀ x ∈ calls h iv bs, g (h x) ≠ g iv) (hne' : ∀ x ∈ calls h iv bs', g (h x) ≠ g iv)
    (hinj : ∀ x ∈ calls h iv bs, ∀ y ∈ calls h iv bs', g (h x) = g (h y) → x = y)
    (e : g (chain h iv bs) = g (chain h iv bs')) : bs = bs' := by
  induction bs using List.reverseRecOn generalizing bs' with
  | nil =>
    rcases List.eq_nil_or_concat bs' with rfl | ⟨l, b, rfl⟩
    · rfl
    · exfalso
      rw [List.concat_eq_append] at *
      rw [chain_snoc] at e
      exact hne' (chain h iv l, b) (by simp [calls_snoc]) e.symm
  | append_singleton l b ih =>
    rcases List.eq_nil_or_concat bs' with rfl | ⟨l', b', rfl⟩
    · exfalso
      rw [chain_snoc] at e
      exact hne (chain h iv l, b) (by simp [calls_snoc]) e
    · rw [List.concat_eq_append] at *
      rw [chain_snoc, chain_snoc] at e
      have := hinj (chain h iv l, b) (by simp [calls_snoc]) (chain h iv l', b') (by simp [calls_snoc]) e
      obtain ⟨h1, h2⟩ := Prod.mk.inj this
      rw [ih l' (fun x hx => hne x (by simp [calls_snoc, hx])) (fun x hx => hne' x (by simp [calls_snoc, hx]))
        (fun x hx y hy => hinj x (by simp [calls_snoc, hx]) y (by simp [calls_snoc, hy])) (by rw [h1]), h2]

end Second

/-! ## The attacker -/

section Probe
variable {w B : Nat} {R : Type}

/-- The evaluations of the attacker, then those of `k`. -/
def probeE (k : R → Eval (Oct w × Blk B) (Oct w)) : KdfGame.Prober w R → Eval (Oct w × Blk B) (Oct w)
  | .stop r => k r
  | .compress H b next => if h : b.length = B then .ask (H, ⟨b, h⟩) fun y => probeE k (next y) else probeE k (next H)

theorem probeE_within (k : R → Eval (Oct w × Blk B) (Oct w)) (c : Nat) (hk : ∀ r, (k r).Within c) (X : KdfGame.Prober w R) (p : Nat)
    (hX : X.Within B p) : (probeE k X).Within (p + c) := by
  induction X generalizing p with
  | stop r => exact (hk r).mono (by omega)
  | compress H b next ih =>
    obtain ⟨hb, p, rfl, h⟩ := hX
    rw [probeE, dif_pos hb]
    exact ⟨p + c, by omega, fun y => ih y p (h y)⟩

theorem probeE_args (k : R → Eval (Oct w × Blk B) (Oct w)) (F : Fn w B) (X : KdfGame.Prober w R) :
    ∀ x ∈ (k (X.run (fn F))).args F, x ∈ (probeE k X).args F := by
  induction X with
  | stop r => exact fun x hx => hx
  | compress H b next ih =>
    intro x hx
    rw [probeE]
    rw [KdfGame.Prober.run] at hx
    by_cases h : b.length = B
    · rw [dif_pos h]
      have e : fn F H b = F (H, ⟨b, h⟩) := by unfold fn; rw [dif_pos h]
      rw [e] at hx
      exact List.mem_cons_of_mem _ (ih _ x hx)
    · rw [dif_neg h]
      have e : fn F H b = H := by unfold fn; rw [dif_neg h]
      rw [e] at hx
      exact ih _ x hx

end Probe

/-! ## Padding -/

section Pad
variable {w : Nat} (A : Alg w)

/-- The padded message. -/
def whole (m : Bytes) : Bytes := m ++ padding A m.length (8 * m.length)

theorem whole_length (hb : A.lenBytes + 1 ≤ A.blockBytes) (m : Bytes) : (whole A m).length % A.blockBytes = 0 :=
  (MerkleDamgard.padded_length A hb m (8 * m.length)).1

/-- The blocks of the padded message. -/
def pieces (hb : A.lenBytes + 1 ≤ A.blockBytes) (m : Bytes) : List (Blk A.blockBytes) :=
  (chunks A.blockBytes (whole A m)).pmap Subtype.mk (chunks_mem_length (by omega) (whole_length A hb m))

theorem pieces_map (hb : A.lenBytes + 1 ≤ A.blockBytes) (m : Bytes) : (pieces A hb m).map Subtype.val = chunks A.blockBytes (whole A m) := by
  unfold pieces
  rw [List.map_pmap]
  simp

theorem pieces_length (hb : A.lenBytes + 1 ≤ A.blockBytes) (m : Bytes) : (pieces A hb m).length = cost A m.length := by
  rw [← blocksOf_length A hb m]
  have h1 := congrArg List.length (pieces_map A hb m)
  have h2 := congrArg List.length (blocksOf_map A hb m)
  rw [List.length_map] at h1 h2
  rw [h1, h2]
  have hl : (whole A m).length = (padded A m).length := by
    unfold whole padded padding
    rw [Nat.add_mod_left]
    simp
  have key : ∀ l : Bytes, l.length % A.blockBytes = 0 → (chunks A.blockBytes l).length * A.blockBytes = l.length := by
    intro l hl
    have hm := chunks_mem_length (n := A.blockBytes) (by omega) hl
    have hf := congrArg List.length (chunks_flatten (n := A.blockBytes) (by omega) l)
    rw [List.length_flatten, List.map_congr_left (g := fun _ => A.blockBytes) (fun c hc => hm c hc)] at hf
    simpa using hf
  have k1 := key _ (whole_length A hb m)
  have k2 := key _ (padded_length A hb m)
  rw [hl, ← k2] at k1
  exact Nat.eq_of_mul_eq_mul_right (by omega) k1

theorem pieces_inj (hb : A.lenBytes + 1 ≤ A.blockBytes) (hl : 8 ≤ A.lenBytes) {m m' : Bytes} (h1 : m.length < 2 ^ 61)
    (h2 : m'.length < 2 ^ 61) (h : pieces A hb m = pieces A hb m') : m = m' := by
  have h := congrArg (List.map Subtype.val) h
  rw [pieces_map, pieces_map] at h
  have h := congrArg List.flatten h
  rw [chunks_flatten (by omega), chunks_flatten (by omega)] at h
  unfold whole padding at h
  rw [← List.append_assoc m, ← List.append_assoc m'] at h
  obtain ⟨h3, h4⟩ := List.append_inj' h (by simp)
  have h256 : 256 ^ 8 ≤ 256 ^ A.lenBytes := Nat.pow_le_pow_right (by omega) hl
  have := toBE_inj (by omega) (by omega) h4
  exact (List.append_inj h3 (by omega)).1

/-- The hash of a message. -/
theorem digestF_pieces (hb : A.lenBytes + 1 ≤ A.blockBytes) (F : Fn w A.blockBytes) (iv : Oct w) (n : Nat) (hn : n ≤ 8 * (w / 8)) (m : Bytes) :
    digestF A (fn F) iv n m = (out n hn (chain F iv (pieces A hb m))).1 := by
  unfold digestF digestWithF hashBlocksF out
  simp only
  rw [show m ++ padding A m.length (8 * m.length) = whole A m from rfl, ← pieces_map A hb, foldl_fn]
  rfl

/-! ## The bounds -/

variable (hb : A.lenBytes + 1 ≤ A.blockBytes) (iv : Oct w) {n N : Nat} (hn : n ≤ 8 * (w / 8)) (hw : w % 8 = 0)

theorem cost_mono {a b : Nat} (h : a ≤ b) : cost A a ≤ cost A b := by
  unfold cost
  exact Nat.add_le_add_right (Nat.div_le_div_right (by omega)) _

/-- Hash the messages, if they are not too long. -/
def hashE (N : Nat) : List Bytes → Eval (Oct w × Blk A.blockBytes) (Oct w)
  | [] => .stop
  | m :: ms => if m.length ≤ N then chainE iv (pieces A hb m) (hashE N ms) else hashE N ms

theorem hashE_within (ms : List Bytes) : (hashE A hb iv N ms).Within (ms.length * cost A N) := by
  induction ms with
  | nil => trivial
  | cons m ms ih =>
    rw [hashE]
    split
    · next h =>
      have := chainE_within iv (pieces A hb m) _ _ ih
      rw [pieces_length] at this
      refine this.mono ?_
      rw [List.length_cons, Nat.add_mul, Nat.one_mul]
      have := cost_mono A h
      omega
    · refine ih.mono ?_
      rw [List.length_cons, Nat.add_mul]
      omega

theorem hashE_args (F : Fn w A.blockBytes) (ms : List Bytes) (m : Bytes) (hm : m ∈ ms) (hN : m.length ≤ N) :
    ∀ x ∈ calls F iv (pieces A hb m), x ∈ (hashE A hb iv N ms).args F := by
  induction ms with
  | nil => simp at hm
  | cons m' ms ih =>
    intro x hx
    rw [hashE]
    rcases List.mem_cons.mp hm with rfl | hm
    · rw [if_pos hN, chainE_args]
      exact List.mem_append_left _ hx
    · split
      · rw [chainE_args]
        exact List.mem_append_right _ (ih hm x hx)
      · exact ih hm x hx

theorem pieces_ne (m : Bytes) : pieces A hb m ≠ [] := by
  intro h
  have := congrArg List.length h
  rw [pieces_length] at this
  unfold cost at this
  simp at this

theorem chain_end {C B : Type} (f : C × B → C) (s : C) (bs : List B) (h : bs ≠ []) : ∃ x ∈ calls f s bs, chain f s bs = f x := by
  rcases List.eq_nil_or_concat bs with rfl | ⟨l, b, rfl⟩
  · exact absurd rfl h
  · rw [List.concat_eq_append, chain_snoc, calls_snoc]
    exact ⟨_, by simp, rfl⟩

include hb hn hw in
/-- Collisions are rare. -/
theorem collision_le (hl : 8 ≤ A.lenBytes) (hN : N < 2 ^ 61) (X : KdfGame.Prober w (Bytes × Bytes)) (p : Nat) (hX : X.Within A.blockBytes p) :
    prob (fun F : Fn w A.blockBytes => (X.run (fn F)).1 ≠ (X.run (fn F)).2 ∧ (X.run (fn F)).1.length ≤ N ∧ (X.run (fn F)).2.length ≤ N ∧
      digestF A (fn F) iv n (X.run (fn F)).1 = digestF A (fn F) iv n (X.run (fn F)).2) ≤
    (p + 2 * cost A N) * (p + 2 * cost A N + 1) / 256 ^ n := by
  classical
  have hbd := bad_le (out n hn) (1 / 256 ^ n) (by positivity) (fun t => (prob_out hw n hn t).le)
    (probeE (fun r : Bytes × Bytes => hashE A hb iv N [r.1, r.2]) X) (p + 2 * cost A N)
    (probeE_within _ _ (fun r => hashE_within A hb iv [r.1, r.2]) X p hX) [] [out n hn iv] Set.univ (fun _ _ _ _ _ => Set.mem_univ _)
    (p + 2 * cost A N + 1) (by simp; omega)
  rw [cprob_univ] at hbd
  refine le_trans (prob_mono fun F hF => ?_) (le_trans hbd (le_of_eq (by push_cast; ring)))
  obtain ⟨hne, h1, h2, he⟩ := hF
  by_contra hbad
  obtain ⟨n1, n2⟩ := Eval.not_bad _ _ _ hbad
  have hin := fun (m : Bytes) (hm : m ∈ [(X.run (fn F)).1, (X.run (fn F)).2]) (hmN : m.length ≤ N) x hx =>
    probeE_args (fun r : Bytes × Bytes => hashE A hb iv N [r.1, r.2]) F X x (hashE_args A hb iv F _ m hm hmN x hx)
  rw [digestF_pieces A hb F iv n hn, digestF_pieces A hb F iv n hn] at he
  refine hne (pieces_inj A hb hl (by omega) (by omega) (chain_inj_iv (out n hn) _ _ (fun x hx => ?_) (fun x hx => ?_) (fun x hx y hy e => ?_)
    (Subtype.ext he)))
  · simpa using n1 x (hin _ (by simp) h1 x hx) (by simp)
  · simpa using n1 x (hin _ (by simp) h2 x hx) (by simp)
  · exact n2 x (hin _ (by simp) h1 x hx) y (hin _ (by simp) h2 y hy) (by simp) (by simp) e

include hb hn hw in
/-- Preimages are rare. -/
theorem preimage_le (ds : List Bytes) (X : KdfGame.Prober w Bytes) (p : Nat) (hX : X.Within A.blockBytes p) :
    prob (fun F : Fn w A.blockBytes => (X.run (fn F)).length ≤ N ∧ digestF A (fn F) iv n (X.run (fn F)) ∈ ds) ≤
    (p + cost A N) * ds.length / 256 ^ n := by
  classical
  let ds' : List {d : Bytes // d.length = n} := ds.filterMap fun d => if h : d.length = n then some ⟨d, h⟩ else none
  have hds' : (ds'.length : ℚ) ≤ ds.length := by exact_mod_cast List.length_filterMap_le _ _
  have hbd := hits_le (out n hn) (1 / 256 ^ n) (by positivity) (fun t => (prob_out hw n hn t).le) ds'
    (probeE (fun r : Bytes => hashE A hb iv N [r]) X) (p + 1 * cost A N)
    (probeE_within _ _ (fun r => hashE_within A hb iv [r]) X p hX) [] Set.univ (fun _ _ _ _ _ => Set.mem_univ _)
  rw [cprob_univ] at hbd
  refine le_trans (prob_mono fun F hF => ?_) (le_trans hbd ?_)
  · obtain ⟨h1, hd⟩ := hF
    by_contra hbad
    have hnot := not_hits _ _ hbad
    obtain ⟨x, hx, e⟩ := chain_end F iv (pieces A hb (X.run (fn F))) (pieces_ne A hb _)
    refine hnot x (probeE_args (fun r : Bytes => hashE A hb iv N [r]) F X x (hashE_args A hb iv F _ _ (by simp) h1 x hx)) (by simp) ?_
    rw [digestF_pieces A hb F iv n hn, e] at hd
    exact List.mem_filterMap.mpr ⟨_, hd, by rw [dif_pos (out n hn (F x)).2]⟩
  · push_cast
    rw [mul_div_assoc, ← mul_one_div (ds.length : ℚ), one_mul]
    exact mul_le_mul_of_nonneg_left (mul_le_mul_of_nonneg_right hds' (by positivity)) (by positivity)

include hb hn hw in
/-- Second preimages are rare. -/
theorem second_le (hl : 8 ≤ A.lenBytes) (hN : N < 2 ^ 61) (M : Bytes) (hM : M.length < 2 ^ 61) (X : KdfGame.Prober w Bytes) (p : Nat)
    (hX : X.Within A.blockBytes p) :
    prob (fun F : Fn w A.blockBytes => (X.run (fn F)).length ≤ N ∧ X.run (fn F) ≠ M ∧ digestF A (fn F) iv n (X.run (fn F)) = digestF A (fn F) iv n M) ≤
    (p + cost A N + cost A M.length) * (cost A M.length + 1) / 256 ^ n := by
  classical
  have hbd := repeats_le (out n hn) (1 / 256 ^ n) (by positivity) (fun t => (prob_out hw n hn t).le)
    (probeE (fun r : Bytes => hashE A hb iv N [r]) X) (p + 1 * cost A N)
    (probeE_within _ _ (fun r => hashE_within A hb iv [r]) X p hX) iv (pieces A hb M) [] [out n hn iv] Set.univ (fun _ _ _ _ _ => Set.mem_univ _)
    (cost A M.length + 1) (by rw [pieces_length]; simp; omega)
  rw [cprob_univ, pieces_length] at hbd
  refine le_trans (prob_mono fun F hF => ?_) (le_trans hbd (le_of_eq (by push_cast; ring)))
  obtain ⟨h1, hne, he⟩ := hF
  by_contra hbad
  obtain ⟨n1, n2, n3⟩ := not_repeats _ _ _ _ _ hbad
  have hin := fun x hx => probeE_args (fun r : Bytes => hashE A hb iv N [r]) F X x (hashE_args A hb iv F _ _ (by simp) h1 x hx)
  have hall : ∀ x ∈ calls F iv (pieces A hb (X.run (fn F))), out n hn (F x) ≠ out n hn iv ∧
      ∀ y ∈ calls F iv (pieces A hb M), out n hn (F x) = out n hn (F y) → x = y := by
    intro x hx
    by_cases hc : x ∈ calls F iv (pieces A hb M)
    · exact ⟨by simpa using n1 x hc (by simp), fun y hy e => n2 x hc y hy (by simp) (by simp) e⟩
    · obtain ⟨j1, j2⟩ := n3 x (hin x hx) (by simp) hc
      exact ⟨by simpa using j1, fun y hy e => absurd e (j2 y hy)⟩
  rw [digestF_pieces A hb F iv n hn, digestF_pieces A hb F iv n hn] at he
  exact hne (pieces_inj A hb hl (by omega) (by omega) (chain_inj_iv (out n hn) _ _ (fun x hx => (hall x hx).1)
    (fun x hx => by simpa using n1 x hx (by simp)) (fun x hx y hy e => (hall x hx).2 y hy e) (Subtype.ext he)))

end Pad

end CryptoPure.Proofs.ShaIdeal
