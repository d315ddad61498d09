import Verif.Proofs.ExtendIdeal

/-! # Extending a digest of which a part is hidden, over a random compression function -/

namespace CryptoPure.Proofs.ExtendIdeal
open Game HmacIdeal ExtractIdeal ShaIdeal HmacSha Spec.Sha2 Switch

section
variable {w B : Nat} {R T : Type}

/-- The arguments of the attacker's evaluations, and those in `known`. -/
def asked (F : Fn w B) : KdfGame.Prober w R → List (Oct w × Blk B) → List (Oct w × Blk B)
  | .stop _, known => known
  | .compress H b next, known => if h : b.length = B then asked F (next (F (H, ⟨b, h⟩))) ((H, ⟨b, h⟩) :: known) else asked F (next H) known

theorem asked_length (F : Fn w B) (X : KdfGame.Prober w R) (p : Nat) (hX : X.Within B p) (known : List (Oct w × Blk B)) :
    (asked F X known).length ≤ p + known.length := by
  induction X generalizing p known with
  | stop r => simp [asked]
  | compress H b next ih =>
    obtain ⟨hb, p, rfl, h⟩ := hX
    rw [asked, dif_pos hb]
    have := ih (F (H, ⟨b, hb⟩)) p (h _) ((H, ⟨b, hb⟩) :: known)
    rw [List.length_cons] at this
    omega

/-- A computation after the attack meets a value that it should not. -/
theorem later_le (g : Oct w → T) (ε : ℚ) (hε : 0 ≤ ε) (hg : ∀ t, prob (fun y => g y = t) ≤ ε) (k : R → Eval (Oct w × Blk B) (Oct w)) (n : Nat)
    (hk : ∀ r, (k r).Within n) (seen : R → List (Oct w × Blk B) → List T) (s : Nat) (hs : ∀ r Q, (seen r Q).length ≤ s + Q.length)
    (X : KdfGame.Prober w R) (p : Nat) (hX : X.Within B p) (known : List (Oct w × Blk B)) (S : Set (Fn w B))
    (hS : ∀ F ∈ S, ∀ x ∉ known, ∀ y, Function.update F x y ∈ S) :
    cprob S (fun F => (k (X.run (fn F))).Bad g F (asked F X known) (seen (X.run (fn F)) (asked F X known))) ≤
      n * (((s + p + known.length + n : Nat) : ℚ) * ε) := by
  classical
  induction X generalizing p known S with
  | stop r =>
    refine bad_le g ε hε hg (k r) n (hk r) known (seen r known) S hS _ ?_
    have := hs r known
    omega
  | compress H b next ih =>
    obtain ⟨hb, p, rfl, h⟩ := hX
    refine cprob_cases S (fun F => F (H, ⟨b, hb⟩)) _ _ (by positivity) fun y _ => ?_
    refine le_trans (le_of_eq (Switch.cprob_congr fun F hF => ?_)) ((ih y p (h y) ((H, ⟨b, hb⟩) :: known) {F ∈ S | F (H, ⟨b, hb⟩) = y} ?_).trans (le_of_eq ?_))
    · have e : fn F H b = y := by unfold fn; rw [dif_pos hb]; exact hF.2
      have e' : F (H, ⟨b, hb⟩) = y := hF.2
      rw [KdfGame.Prober.run, asked, dif_pos hb, e, e']
    · rintro F ⟨h1, h2⟩ z hz v
      simp only [List.mem_cons, not_or] at hz
      refine ⟨hS F h1 z hz.2 v, ?_⟩
      simp only [Function.update_of_ne (Ne.symm hz.1)]
      exact h2
    · rw [List.length_cons, show s + p + (known.length + 1) + n = s + (p + 1) + known.length + n by omega]

/-- The attacker evaluates at the chaining value that it does not see completely. -/
theorem hidden_le {C T : Type} [Finite C] [Finite T] (g : C → T) (ε : ℚ) (h1 : ∀ c, prob (fun y : C => y = c) ≤ ε) (L : T → List C) (p : Nat)
    (hL : ∀ t, (L t).length ≤ p) (hε : 0 ≤ ε) : prob (fun c => c ∈ L (g c)) ≤ Nat.card T * (p * ε) := by
  have : Fintype T := Fintype.ofFinite T
  have h : ∀ l : List T, prob (fun c => ∃ t ∈ l, c ∈ L t) ≤ l.length * (p * ε) := fun l => prob_exists_list _ _ l fun t _ => by
    refine le_trans (prob_mono (Q := fun c => ∃ q ∈ L t, c = q) fun c hc => ⟨c, hc, rfl⟩) ((prob_exists_list (fun q c => c = q) ε (L t) fun q _ => h1 q).trans ?_)
    exact mul_le_mul_of_nonneg_right (by exact_mod_cast hL t) hε
  refine le_trans (prob_mono fun c hc => ?_) ((h Finset.univ.toList).trans (le_of_eq ?_))
  · exact ⟨g c, by simp, hc⟩
  · rw [Finset.length_toList, Finset.card_univ, Nat.card_eq_fintype_card]

theorem calls_new {C B : Type} (f : C × B → C) (Q : List (C × B)) (bs : List B) (s : C) (hs : ∀ q ∈ Q, q.1 ≠ s)
    (h : ∀ x ∈ calls f s bs, x ∉ Q → ∀ q ∈ Q, f x ≠ q.1) : ∀ x ∈ calls f s bs, x ∉ Q := by
  induction bs generalizing s with
  | nil => simp [calls]
  | cons b bs ih =>
    have h0 : (s, b) ∉ Q := fun hq => hs _ hq rfl
    intro x hx
    rcases List.mem_cons.mp hx with rfl | hx
    · exact h0
    · exact ih (f (s, b)) (fun q hq e => h (s, b) (by simp [calls]) h0 q hq e.symm) (fun y hy => h y (by simp [calls, hy])) x hx

theorem probe_run_congr (k : R → Eval (Oct w × Blk B) (Oct w)) (F F' : Fn w B) (X : KdfGame.Prober w R)
    (h : ∀ x ∈ (probeE k X).args F, F x = F' x) : X.run (fn F) = X.run (fn F') := by
  induction X with
  | stop r => rfl
  | compress H b next ih =>
    rw [KdfGame.Prober.run, KdfGame.Prober.run]
    by_cases hb : b.length = B
    · have e : fn F H b = F (H, ⟨b, hb⟩) := by unfold fn; rw [dif_pos hb]
      have e' : fn F' H b = F' (H, ⟨b, hb⟩) := by unfold fn; rw [dif_pos hb]
      rw [probeE, dif_pos hb] at h
      rw [e, e', ← h _ (by simp [Eval.args])]
      exact ih _ fun x hx => h x (by simp [Eval.args, hx])
    · have e : fn F H b = H := by unfold fn; rw [dif_neg hb]
      have e' : fn F' H b = H := by unfold fn; rw [dif_neg hb]
      rw [probeE, dif_neg hb] at h
      rw [e, e']
      exact ih _ h

end

/-! ## SHA-2 -/

section
variable {w : Nat} (A : Alg w) (hb : A.lenBytes + 1 ≤ A.blockBytes)

include hb in
theorem tail_length (x : Bytes) (bits : Nat) : (x ++ padding A x.length bits).length % A.blockBytes = 0 := (MerkleDamgard.padded_length A hb x bits).1

/-- The blocks of the suffix, when the padding says that there are `bits` bits. -/
def tail (bits : Nat) (x : Bytes) : List (Blk A.blockBytes) :=
  (chunks A.blockBytes (x ++ padding A x.length bits)).pmap Subtype.mk (chunks_mem_length (by omega) (tail_length A hb x bits))

theorem tail_map (bits : Nat) (x : Bytes) : (tail A hb bits x).map Subtype.val = chunks A.blockBytes (x ++ padding A x.length bits) := by
  unfold tail
  rw [List.map_pmap]
  simp

theorem tail_cost (bits : Nat) (x : Bytes) : (tail A hb bits x).length = cost A x.length := by
  rw [← pieces_length A hb x]
  have h1 := congrArg List.length (tail_map A hb bits x)
  have h2 := congrArg List.length (pieces_map A hb x)
  rw [List.length_map] at h1 h2
  rw [h1, h2]
  have key : ∀ l : Bytes, l.length % A.blockBytes = 0 → (chunks A.blockBytes l).length * A.blockBytes = l.length := by
    intro l hl
    have hm := chunks_mem_length (n := A.blockBytes) (by omega) hl
    have hf := congrArg List.length (chunks_flatten (n := A.blockBytes) (by omega) l)
    rw [List.length_flatten, List.map_congr_left (g := fun _ => A.blockBytes) (fun c hc => hm c hc)] at hf
    simpa using hf
  have k1 := key _ (tail_length A hb x bits)
  have k2 := key _ (whole_length A hb x)
  have hl : (x ++ padding A x.length bits).length = (whole A x).length := by
    unfold whole padding
    simp
  rw [hl, ← k2] at k1
  exact Nat.eq_of_mul_eq_mul_right (by omega) k1

theorem tail_ne (bits : Nat) (x : Bytes) : tail A hb bits x ≠ [] := by
  intro h
  have := congrArg List.length h
  rw [tail_cost] at this
  unfold cost at this
  simp at this

/-- The blocks of an extended text. -/
theorem pieces_extend (M x : Bytes) :
    pieces A hb (M ++ padding A M.length (8 * M.length) ++ x) =
      pieces A hb M ++ tail A hb (8 * (M ++ padding A M.length (8 * M.length) ++ x).length) x := by
  refine List.map_injective_iff.mpr Subtype.val_injective ?_
  rw [List.map_append, pieces_map, pieces_map, tail_map]
  have h1 := whole_length A hb M
  have e : padding A (M ++ padding A M.length (8 * M.length) ++ x).length (8 * (M ++ padding A M.length (8 * M.length) ++ x).length) =
      padding A x.length (8 * (M ++ padding A M.length (8 * M.length) ++ x).length) := by
    generalize 8 * (M ++ padding A M.length (8 * M.length) ++ x).length = bits
    unfold padding
    have : ((M ++ padding A M.length (8 * M.length) ++ x).length) % A.blockBytes = x.length % A.blockBytes := by
      rw [List.length_append (as := M ++ _), Nat.add_mod, show M ++ padding A M.length (8 * M.length) = whole A M from rfl, h1, Nat.zero_add, Nat.mod_mod]
    unfold padding at this
    rw [this]
  generalize hbits : 8 * (M ++ padding A M.length (8 * M.length) ++ x).length = bits at *
  unfold whole
  rw [hbits, e, List.append_assoc]
  exact chunks_append (by omega) h1

theorem chain_append {C B : Type} (f : C × B → C) (s : C) (l r : List B) : chain f s (l ++ r) = chain f (chain f s l) r := by
  induction l generalizing s with
  | nil => rfl
  | cons b l ih => exact ih _

variable (iv : Oct w) {n N : Nat} (hn : n ≤ 8 * (w / 8)) (hw : w % 8 = 0)

theorem prob_point (hw : w % 8 = 0) (c : Oct w) : prob (fun y : Oct w => y = c) ≤ 1 / 256 ^ (8 * (w / 8)) := by
  rw [← prob_out hw _ le_rfl (out (8 * (w / 8)) le_rfl c)]
  exact prob_mono fun y hy => by rw [hy]

/-- The attacker's guess is right, when `c` is the chaining value after the secret. -/
def Guess (N bits : Nat) (X : Bytes → KdfGame.Prober w (Bytes × Bytes)) (F : Fn w A.blockBytes) (c : Oct w) : Prop :=
  ((X (out n hn c).1).run (fn F)).1.length ≤ N ∧
    (out n hn (chain F c (tail A hb (8 * (bits + ((X (out n hn c).1).run (fn F)).1.length)) ((X (out n hn c).1).run (fn F)).1))).1 = ((X (out n hn c).1).run (fn F)).2

/-- Absorb the suffix. -/
def follow (N bits : Nat) (c : Oct w) (r : Bytes × Bytes) : Eval (Oct w × Blk A.blockBytes) (Oct w) :=
  if r.1.length ≤ N then chainE c (tail A hb (8 * (bits + r.1.length)) r.1) .stop else .stop

theorem follow_within (bits : Nat) (c : Oct w) (r : Bytes × Bytes) : (follow A hb N bits c r).Within (cost A N) := by
  unfold follow
  split
  · next h =>
    have := chainE_within c (tail A hb (8 * (bits + r.1.length)) r.1) (.stop : Eval (Oct w × Blk A.blockBytes) (Oct w)) 0 trivial
    rw [tail_cost] at this
    exact this.mono (by have := cost_mono A h; omega)
  · trivial

theorem follow_args (bits : Nat) (c : Oct w) (r : Bytes × Bytes) (hr : r.1.length ≤ N) (F : Fn w A.blockBytes) :
    (follow A hb N bits c r).args F = calls F c (tail A hb (8 * (bits + r.1.length)) r.1) := by
  unfold follow
  rw [if_pos hr, chainE_args]
  simp [Eval.args]

include hw in
/-- Guessing when the chaining value is random. -/
theorem ideal_le (bits : Nat) (X : Bytes → KdfGame.Prober w (Bytes × Bytes)) (p : Nat) (hX : ∀ d, d.length = n → (X d).Within A.blockBytes p) :
    prob (fun q : Fn w A.blockBytes × Oct w => Guess A hb hn N bits X q.1 q.2) ≤
      p / 256 ^ (8 * (w / 8) - n) + cost A N * (cost A N + p + 1) / 256 ^ n := by
  classical
  have h1 : prob (fun q : Fn w A.blockBytes × Oct w => ∃ x ∈ asked q.1 (X (out n hn q.2).1) [], x.1 = q.2) ≤ p / 256 ^ (8 * (w / 8) - n) := by
    rw [← prob_equiv (Equiv.prodComm (Oct w) (Fn w A.blockBytes))]
    refine prob_prod_le _ _ fun F => ?_
    have hT : Nat.card {d : Bytes // d.length = n} = 256 ^ n := Props.card_digest n
    have := hidden_le (out n hn) (1 / 256 ^ (8 * (w / 8))) (prob_point hw) (fun t => (asked F (X t.1) []).map Prod.fst) p
      (fun t => by rw [List.length_map]; exact asked_length F _ p (hX _ t.2) []) (by positivity)
    refine le_trans (prob_mono fun c hc => ?_) (this.trans (le_of_eq ?_))
    · obtain ⟨x, hx, e⟩ := hc
      exact List.mem_map.mpr ⟨x, hx, e⟩
    · rw [hT]
      have e : (256 : ℚ) ^ (8 * (w / 8)) = 256 ^ (8 * (w / 8) - n) * 256 ^ n := by rw [← pow_add, Nat.sub_add_cancel hn]
      rw [e]
      push_cast
      field_simp
  have h2 : prob (fun q : Fn w A.blockBytes × Oct w => (follow A hb N bits q.2 ((X (out n hn q.2).1).run (fn q.1))).Bad (out n hn) q.1
      (asked q.1 (X (out n hn q.2).1) [])
      ((if h : ((X (out n hn q.2).1).run (fn q.1)).2.length = n then [(⟨_, h⟩ : {d : Bytes // d.length = n})] else []) ++
        (asked q.1 (X (out n hn q.2).1) []).map fun x => out n hn x.1)) ≤ cost A N * (cost A N + p + 1) / 256 ^ n := by
    refine prob_prod_le _ _ fun c => ?_
    have := later_le (out n hn) (1 / 256 ^ n) (by positivity) (fun t => (prob_out hw n hn t).le) (follow A hb N bits c) (cost A N) (follow_within A hb bits c)
      (fun r Q => (if h : r.2.length = n then [(⟨_, h⟩ : {d : Bytes // d.length = n})] else []) ++ Q.map fun x => out n hn x.1) 1
      (fun r Q => by
        rw [List.length_append, List.length_map]
        split <;> simp)
      (X (out n hn c).1) p (hX _ (out n hn c).2) [] Set.univ (fun _ _ _ _ _ => Set.mem_univ _)
    rw [cprob_univ] at this
    refine le_trans this (le_of_eq ?_)
    push_cast [List.length_nil]
    ring
  refine le_trans (prob_mono fun q hq => ?_) (le_trans (prob_or _ _) (add_le_add h1 h2))
  obtain ⟨F, c⟩ := q
  obtain ⟨hr, hd⟩ := hq
  simp only at hr hd ⊢
  by_contra hcon
  rw [not_or] at hcon
  obtain ⟨c1, c2⟩ := hcon
  obtain ⟨n1, -⟩ := Eval.not_bad _ _ _ c2
  rw [follow_args A hb bits c _ hr F] at n1
  generalize (X (out n hn c).1).run (fn F) = r at *
  have hnew := calls_new F (asked F (X (out n hn c).1) []) _ c (fun q hq e => c1 ⟨q, hq, e⟩) fun x hx hxQ q hq e =>
    n1 x hx hxQ (List.mem_append_right _ (List.mem_map.mpr ⟨q, hq, by rw [e]⟩))
  obtain ⟨x, hx, e⟩ := chain_end F c _ (tail_ne A hb (8 * (bits + r.1.length)) r.1)
  refine n1 x hx (hnew x hx) (List.mem_append_left _ ?_)
  rw [e] at hd
  have hl : r.2.length = n := by rw [← hd]; exact (out n hn (F x)).2
  rw [dif_pos hl, List.mem_singleton]
  exact Subtype.ext hd

open Classical in
include hw in
/-- Guessing the digest of the extended text. -/
theorem extend_le {K : Type} [Finite K] [Nonempty K] (hl : 8 ≤ A.lenBytes) (secret : K → Bytes) (l : Nat) (hs : ∀ k, (secret k).length = l) (hl61 : l < 2 ^ 61)
    (δ : ℚ) (hδ : ∀ s, prob (fun k => secret k = s) ≤ δ) (X : Bytes → KdfGame.Prober w (Bytes × Bytes)) (p : Nat)
    (hX : ∀ d, d.length = n → (X d).Within A.blockBytes p) (bits : Nat) :
    prob (fun q : K × Fn w A.blockBytes => Guess A hb hn N bits X q.2 (chain q.2 iv (pieces A hb (secret q.1)))) ≤
      p / 256 ^ (8 * (w / 8) - n) + cost A N * (cost A N + p + 1) / 256 ^ n +
      ((p + cost A N) * δ + ((p + cost A N) * (p + cost A N + 1) + cost A l * (cost A l + 2 * (p + cost A N) + 1)) / 256 ^ (8 * (w / 8))) := by
  have hδ0 : 0 ≤ δ := le_trans (by unfold prob; positivity) (hδ [])
  have hne := fun k => pieces_ne A hb (secret k)
  have hsplit : ∀ k, (pieces A hb (secret k)).dropLast ++ [(pieces A hb (secret k)).getLast (hne k)] = pieces A hb (secret k) :=
    fun k => List.dropLast_append_getLast (hne k)
  have h1 := real_le_ideal (K := K) (iv := iv) (init := fun k => (pieces A hb (secret k)).dropLast) (lst := fun k => (pieces A hb (secret k)).getLast (hne k))
    (A := fun c => probeE (follow A hb N bits c) (X (out n hn c).1)) (Guess A hb hn N bits X) (by
      intro F F' c h
      have e := probe_run_congr _ F F' _ h
      unfold Guess
      rw [← e]
      refine and_congr_right fun hr => ?_
      rw [HmacIdeal.chain_congr (f := F') (h := F)]
      intro x hx
      refine (h x (probeE_args _ F _ x ?_)).symm
      rw [follow_args A hb bits c _ hr F]
      exact hx)
  have h2 := not_fine_le (K := K) (iv := iv) (init := fun k => (pieces A hb (secret k)).dropLast) (lst := fun k => (pieces A hb (secret k)).getLast (hne k))
    (A := fun c => probeE (follow A hb N bits c) (X (out n hn c).1)) (g := out (8 * (w / 8)) le_rfl) δ hδ0 (by
      intro L
      by_cases h0 : ∃ k0, pieces A hb (secret k0) = L
      · obtain ⟨k0, rfl⟩ := h0
        refine le_trans (prob_mono fun k hk => ?_) (hδ (secret k0))
        rw [hsplit] at hk
        exact pieces_inj A hb hl (by rw [hs]; exact hl61) (by rw [hs]; exact hl61) hk
      · refine le_trans (prob_mono (Q := fun _ => False) fun k hk => h0 ⟨k, (hsplit k).symm.trans hk⟩) ?_
        unfold prob
        simpa using hδ0) (1 / 256 ^ (8 * (w / 8))) (by positivity) (fun t => (prob_out hw _ le_rfl t).le) (p + cost A N) (cost A l)
    (fun c => probeE_within _ _ (follow_within A hb bits c) _ p (hX _ (out n hn c).2)) (by
      intro k
      rw [List.length_dropLast, pieces_length, hs]
      omega)
  have h3 := ideal_le A hb (N := N) hn hw bits X p hX
  simp only [hsplit] at h1
  push_cast at h2
  refine h1.trans (add_le_add h3 (h2.trans (le_of_eq ?_)))
  rw [mul_one_div]

end

end CryptoPure.Proofs.ExtendIdeal
