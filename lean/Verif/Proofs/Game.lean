import Verif.Spec.Game
import Mathlib.Algebra.BigOperators.Ring.Finset
import Mathlib.Algebra.BigOperators.Group.Finset.Basic
import Mathlib.Algebra.Order.BigOperators.Group.Finset
import Mathlib.Algebra.Order.Field.Basic
import Mathlib.Data.Rat.Lemmas
import Mathlib.Tactic.Linarith
import Mathlib.Tactic.FieldSimp

/-! # Games against an authenticated cipher: the general argument -/

namespace CryptoPure.Game

variable {K : Type}

/-! ## Counting along fibres -/

theorem ncard_fibres {α β : Type} [Finite α] (f g : α → β) (S T : Set α)
    (h : ∀ r, {x ∈ S | f x = r}.ncard = {x ∈ T | g x = r}.ncard) : S.ncard = T.ncard := by
  classical
  have : Fintype α := Fintype.ofFinite α
  rw [Set.ncard_eq_toFinset_card', Set.ncard_eq_toFinset_card']
  have hS : ∀ x ∈ S.toFinset, f x ∈ Finset.univ.image f ∪ Finset.univ.image g := fun x _ => by simp
  have hT : ∀ x ∈ T.toFinset, g x ∈ Finset.univ.image f ∪ Finset.univ.image g := fun x _ => by simp
  rw [Finset.card_eq_sum_card_fiberwise hS, Finset.card_eq_sum_card_fiberwise hT]
  refine Finset.sum_congr rfl fun r _ => ?_
  have := h r
  rw [Set.ncard_eq_toFinset_card', Set.ncard_eq_toFinset_card'] at this
  convert this using 2 <;> (ext; simp)

theorem ncard_fibres_le {α β : Type} [Finite α] (f : α → β) (S T : Set α) (c d : Nat)
    (h : ∀ r, {x ∈ S | f x = r}.ncard * c ≤ d * {x ∈ T | f x = r}.ncard) : S.ncard * c ≤ d * T.ncard := by
  classical
  have : Fintype α := Fintype.ofFinite α
  rw [Set.ncard_eq_toFinset_card', Set.ncard_eq_toFinset_card']
  have hS : ∀ x ∈ S.toFinset, f x ∈ Finset.univ.image f := fun x _ => by simp
  have hT : ∀ x ∈ T.toFinset, f x ∈ Finset.univ.image f := fun x _ => by simp
  rw [Finset.card_eq_sum_card_fiberwise hS, Finset.card_eq_sum_card_fiberwise hT, Finset.sum_mul, Finset.mul_sum]
  refine Finset.sum_le_sum fun r _ => ?_
  have := h r
  rw [Set.ncard_eq_toFinset_card', Set.ncard_eq_toFinset_card'] at this
  convert this using 3 <;> (ext; simp)

/-! ## The general argument -/

/-- An encryption that took place in the game. -/
structure Exchange where
  nonce : Bytes
  data : Bytes
  msg : Bytes
  msg' : Bytes
  buffer : Bytes
  ct : Bytes
  tag : Bytes

/-- The message that was encrypted. -/
def Exchange.sent (right : Bool) (q : Exchange) : Bytes := if right then q.msg' else q.msg

/-- What the adversary saw. -/
def Exchange.seen (q : Exchange) : Bytes × Bytes × Bytes × Bytes := (q.nonce, q.data, q.ct, q.tag)

/-- The keys that explain what was seen. -/
def explain (S : Scheme K) (right : Bool) (qs : List Exchange) : Set K :=
  {k | ∀ q ∈ qs, S.enc k (q.sent right) q.nonce q.data q.buffer = some (q.ct, q.tag)}

/-- A history of the game. -/
structure Legal (blocks : Nat → Nat → Nat) (n : Nat) (qs : List Exchange) : Prop where
  nodup : (qs.map Exchange.nonce).Nodup
  len : ∀ q ∈ qs, q.msg.length = q.msg'.length
  small : ∀ q ∈ qs, blocks q.data.length q.msg.length ≤ n

/-- What the argument needs to know about a cipher; `reject` is the answer to a decryption that does not succeed. -/
structure Good (S : Scheme K) (blocks : Nat → Nat → Nat) (n num den : Nat)
    (reject : (ct nonce data tag buffer : Bytes) → Option (Bytes × Bool)) : Prop where
  hide : ∀ qs, Legal blocks n qs → (explain S false qs).ncard = (explain S true qs).ncard
  panic : ∀ (k k' : K) (msg msg' nonce data buffer : Bytes), msg.length = msg'.length → S.enc k msg nonce data buffer = none →
    S.enc k' msg' nonce data buffer = none
  forge : ∀ right qs, Legal blocks n qs → ∀ nonce data ct t buffer, blocks data.length ct.length ≤ n →
    (nonce, data, ct, t) ∉ qs.map Exchange.seen →
    {k ∈ explain S right qs | ∃ out, S.dec k ct nonce data t buffer = some (out, true)}.ncard * den ≤
      num * (explain S right qs).ncard
  rej : ∀ k ct nonce data t buffer, blocks data.length ct.length ≤ n →
    S.dec k ct nonce data t buffer = reject ct nonce data t buffer ∨ ∃ out, S.dec k ct nonce data t buffer = some (out, true)

variable {S : Scheme K} {blocks : Nat → Nat → Nat} {n num den : Nat}
  {reject : (ct nonce data tag buffer : Bytes) → Option (Bytes × Bool)}

/-- The game in which decryptions never succeed. -/
def playIdeal (S : Scheme K) (reject : (ct nonce data tag buffer : Bytes) → Option (Bytes × Bool)) (right : Bool) (k : K) :
    Adversary → Log → Bool
  | .stop guess, _ => guess
  | .encrypt nonce data msg msg' buffer next, log =>
    if nonce ∈ log.map Prod.fst ∨ msg.length ≠ msg'.length then playIdeal S reject right k (next none) log
    else match S.enc k (if right then msg' else msg) nonce data buffer with
      | none => playIdeal S reject right k (next none) log
      | some (ct, t) => playIdeal S reject right k (next (some (ct, t))) ((nonce, data, ct, t) :: log)
  | .decrypt nonce data ct t buffer next, log =>
    if (nonce, data, ct, t) ∈ log then playIdeal S reject right k (next none) log
    else playIdeal S reject right k (next (reject ct nonce data t buffer)) log

theorem play_ideal (G : Good S blocks n num den reject) (right : Bool) (k : K) (A : Adversary) (a : Nat) (log : Log)
    (hA : Within blocks n A a) (h : ¬ forges S right k A log) : play S right k A log = playIdeal S reject right k A log := by
  induction A generalizing a log with
  | stop g => rfl
  | encrypt nonce data msg msg' buffer next ih =>
    unfold play playIdeal
    unfold forges at h
    split
    · rw [if_pos ‹_›] at h
      exact ih _ _ _ (hA.2 _) h
    · rw [if_neg ‹_›] at h
      generalize S.enc k _ nonce data buffer = r at *
      match r with
      | none => exact ih _ _ _ (hA.2 _) h
      | some (ct, t) => exact ih _ _ _ (hA.2 _) h
  | decrypt nonce data ct t buffer next ih =>
    obtain ⟨h1, b, rfl, h2⟩ := hA
    unfold play playIdeal
    unfold forges at h
    split
    · rw [if_pos ‹_›] at h
      exact ih _ _ _ (h2 _) h
    · rw [if_neg ‹_›] at h
      rw [ih _ _ _ (h2 _) (fun c => h (Or.inr c))]
      rcases G.rej k ct nonce data t buffer h1 with e | e
      · rw [e]
      · exact absurd (Or.inl e) h

theorem log_nonces (qs : List Exchange) : (qs.map Exchange.seen).map Prod.fst = qs.map Exchange.nonce := by
  rw [List.map_map]; rfl

theorem explain_cons (right : Bool) (q : Exchange) (qs : List Exchange) :
    explain S right (q :: qs) = {k ∈ explain S right qs | S.enc k (q.sent right) q.nonce q.data q.buffer = some (q.ct, q.tag)} := by
  ext k
  simp only [explain, List.mem_cons, forall_eq_or_imp, Set.mem_ofPred_eq]
  tauto

theorem Legal.cons {qs : List Exchange} (h : Legal blocks n qs) (q : Exchange) (h1 : q.nonce ∉ qs.map Exchange.nonce)
    (h2 : q.msg.length = q.msg'.length) (h3 : blocks q.data.length q.msg.length ≤ n) : Legal blocks n (q :: qs) :=
  ⟨by rw [List.map_cons, List.nodup_cons]; exact ⟨h1, h.nodup⟩, by simpa using ⟨h2, h.len⟩, by simpa using ⟨h3, h.small⟩⟩

theorem ideal_hides [Finite K] (G : Good S blocks n num den reject) (A : Adversary) (a : Nat) (hA : Within blocks n A a)
    (qs : List Exchange) (hq : Legal blocks n qs) :
    {k ∈ explain S false qs | playIdeal S reject false k A (qs.map Exchange.seen) = true}.ncard =
      {k ∈ explain S true qs | playIdeal S reject true k A (qs.map Exchange.seen) = true}.ncard := by
  induction A generalizing a qs with
  | stop g =>
    unfold playIdeal
    cases g
    · simp
    · simpa using G.hide qs hq
  | encrypt nonce data msg msg' buffer next ih =>
    unfold playIdeal
    rw [log_nonces]
    by_cases hr : nonce ∈ qs.map Exchange.nonce ∨ msg.length ≠ msg'.length
    · simp only [if_pos hr]
      exact ih _ _ (hA.2 _) qs hq
    · simp only [if_neg hr]
      rw [not_or, not_not] at hr
      by_cases hp : ∃ k, S.enc k msg nonce data buffer = none
      · obtain ⟨k, hk⟩ := hp
        have e1 : ∀ k', S.enc k' msg nonce data buffer = none := fun k' => G.panic k k' _ _ _ _ _ rfl hk
        have e2 : ∀ k', S.enc k' msg' nonce data buffer = none := fun k' => G.panic k k' _ _ _ _ _ hr.2 hk
        simp only [Bool.false_eq_true, if_false, if_true, e1, e2]
        exact ih _ _ (hA.2 _) qs hq
      · have hp' : ∀ k, S.enc k msg' nonce data buffer ≠ none := fun k hk =>
          hp ⟨k, G.panic k k _ _ _ _ _ hr.2.symm hk⟩
        have hp : ∀ k, S.enc k msg nonce data buffer ≠ none := fun k hk => hp ⟨k, hk⟩
        refine ncard_fibres (fun k => S.enc k msg nonce data buffer) (fun k => S.enc k msg' nonce data buffer) _ _ fun r => ?_
        match r with
        | none =>
          have z1 : ∀ (X : Set K), {k ∈ X | S.enc k msg nonce data buffer = none} = ∅ := fun X => by
            ext k; simpa using fun _ => hp k
          have z2 : ∀ (X : Set K), {k ∈ X | S.enc k msg' nonce data buffer = none} = ∅ := fun X => by
            ext k; simpa using fun _ => hp' k
          rw [z1, z2]
        | some (ct, t) =>
          have := ih (some (ct, t)) a (hA.2 _) (⟨nonce, data, msg, msg', buffer, ct, t⟩ :: qs) (hq.cons _ hr.1 hr.2 hA.1)
          rw [explain_cons, explain_cons] at this
          convert this using 2
          · ext k
            constructor
            · rintro ⟨⟨h1, h2⟩, h3⟩
              have h3 : S.enc k msg nonce data buffer = some (ct, t) := h3
              simp only [Bool.false_eq_true, if_false, h3] at h2
              exact ⟨⟨h1, h3⟩, h2⟩
            · rintro ⟨⟨h1, h2⟩, h3⟩
              have h2 : S.enc k msg nonce data buffer = some (ct, t) := h2
              refine ⟨⟨h1, ?_⟩, h2⟩
              simp only [Bool.false_eq_true, if_false, h2]
              exact h3
          · ext k
            constructor
            · rintro ⟨⟨h1, h2⟩, h3⟩
              have h3 : S.enc k msg' nonce data buffer = some (ct, t) := h3
              simp only [if_true, h3] at h2
              exact ⟨⟨h1, h3⟩, h2⟩
            · rintro ⟨⟨h1, h2⟩, h3⟩
              have h2 : S.enc k msg' nonce data buffer = some (ct, t) := h2
              refine ⟨⟨h1, ?_⟩, h2⟩
              simp only [if_true, h2]
              exact h3
  | decrypt nonce data ct t buffer next ih =>
    obtain ⟨h1, b, rfl, h2⟩ := hA
    unfold playIdeal
    by_cases hr : (nonce, data, ct, t) ∈ qs.map Exchange.seen
    · simp only [if_pos hr]
      exact ih _ _ (h2 _) qs hq
    · simp only [if_neg hr]
      exact ih _ _ (h2 _) qs hq

theorem forge_bound [Finite K] (G : Good S blocks n num den reject) (right : Bool) (A : Adversary) (a : Nat)
    (hA : Within blocks n A a) (qs : List Exchange) (hq : Legal blocks n qs) :
    {k ∈ explain S right qs | forges S right k A (qs.map Exchange.seen)}.ncard * den ≤ a * num * (explain S right qs).ncard := by
  induction A generalizing a qs with
  | stop g =>
    unfold forges
    simp
  | encrypt nonce data msg msg' buffer next ih =>
    unfold forges
    rw [log_nonces]
    by_cases hr : nonce ∈ qs.map Exchange.nonce ∨ msg.length ≠ msg'.length
    · simp only [if_pos hr]
      exact ih _ _ (hA.2 _) qs hq
    · simp only [if_neg hr]
      rw [not_or, not_not] at hr
      by_cases hp : ∃ k, S.enc k (if right then msg' else msg) nonce data buffer = none
      · obtain ⟨k, hk⟩ := hp
        have e1 : ∀ k', S.enc k' (if right then msg' else msg) nonce data buffer = none := fun k' =>
          G.panic k k' _ _ _ _ _ rfl hk
        simp only [e1]
        exact ih _ _ (hA.2 _) qs hq
      · refine ncard_fibres_le (fun k => S.enc k (if right then msg' else msg) nonce data buffer) _ _ _ _ fun r => ?_
        match r with
        | none =>
          have z1 : ∀ (X : Set K), {k ∈ X | S.enc k (if right then msg' else msg) nonce data buffer = none} = ∅ := fun X => by
            ext k; simpa using fun _ hk => hp ⟨k, hk⟩
          rw [z1]
          simp
        | some (ct, t) =>
          have := ih (some (ct, t)) a (hA.2 _) (⟨nonce, data, msg, msg', buffer, ct, t⟩ :: qs) (hq.cons _ hr.1 hr.2 hA.1)
          rw [explain_cons] at this
          convert this using 3
          · ext k
            constructor
            · rintro ⟨⟨h1, h2⟩, h3⟩
              have h3 : S.enc k (if right then msg' else msg) nonce data buffer = some (ct, t) := h3
              simp only [h3] at h2
              exact ⟨⟨h1, h3⟩, h2⟩
            · rintro ⟨⟨h1, h2⟩, h3⟩
              have h2 : S.enc k (if right then msg' else msg) nonce data buffer = some (ct, t) := h2
              refine ⟨⟨h1, ?_⟩, h2⟩
              simp only [h2]
              exact h3
          · rfl
  | decrypt nonce data ct t buffer next ih =>
    obtain ⟨h1, b, rfl, h2⟩ := hA
    unfold forges
    by_cases hr : (nonce, data, ct, t) ∈ qs.map Exchange.seen
    · simp only [if_pos hr]
      refine (ih _ _ (h2 _) qs hq).trans ?_
      gcongr
      omega
    · simp only [if_neg hr]
      have k1 := G.forge right qs hq nonce data ct t buffer h1 hr
      have k2 := ih (reject ct nonce data t buffer) _ (h2 _) qs hq
      have hs : {k ∈ explain S right qs | (∃ out, S.dec k ct nonce data t buffer = some (out, true)) ∨
          forges S right k (next (S.dec k ct nonce data t buffer)) (qs.map Exchange.seen)} ⊆
          {k ∈ explain S right qs | ∃ out, S.dec k ct nonce data t buffer = some (out, true)} ∪
          {k ∈ explain S right qs | forges S right k (next (reject ct nonce data t buffer)) (qs.map Exchange.seen)} := by
        rintro k ⟨hk, h⟩
        rcases G.rej k ct nonce data t buffer h1 with e | e
        · rcases h with h | h
          · exact Or.inl ⟨hk, h⟩
          · rw [e] at h
            exact Or.inr ⟨hk, h⟩
        · exact Or.inl ⟨hk, e⟩
      have k3 := Set.ncard_le_ncard hs (Set.toFinite _)
      have k4 := Set.ncard_union_le {k ∈ explain S right qs | ∃ out, S.dec k ct nonce data t buffer = some (out, true)}
          {k ∈ explain S right qs | forges S right k (next (reject ct nonce data t buffer)) (qs.map Exchange.seen)}
      nlinarith

theorem explain_nil (right : Bool) : explain S right [] = Set.univ := by
  ext; simp [explain]

theorem legal_nil : Legal blocks n [] := ⟨by simp, by simp, by simp⟩

/-- Forgeries by an adaptive adversary. -/
theorem forgery [Finite K] (G : Good S blocks n num den reject) (right : Bool) (A : Adversary) (a : Nat) (hA : Within blocks n A a) :
    {k | forges S right k A []}.ncard * den ≤ a * num * Nat.card K := by
  have := forge_bound G right A a hA [] legal_nil
  rw [explain_nil, Set.ncard_univ] at this
  simpa using this

/-- Distinguishing by an adaptive adversary. -/
theorem distinguish [Finite K] (G : Good S blocks n num den reject) (A : Adversary) (a : Nat) (hA : Within blocks n A a) (right : Bool) :
    {k | play S right k A [] = true}.ncard * den ≤ {k | play S (!right) k A [] = true}.ncard * den + 2 * (a * num * Nat.card K) := by
  have h0 := ideal_hides G A a hA [] legal_nil
  rw [explain_nil, explain_nil] at h0
  simp only [Set.mem_univ, true_and, List.map_nil] at h0
  have h0 : {k | playIdeal S reject right k A [] = true}.ncard = {k | playIdeal S reject (!right) k A [] = true}.ncard := by
    cases right
    · exact h0
    · exact h0.symm
  have h1 := forgery G right A a hA
  have h2 := forgery G (!right) A a hA
  have s1 : {k | play S right k A [] = true} ⊆ {k | playIdeal S reject right k A [] = true} ∪ {k | forges S right k A []} := by
    intro k hk
    by_cases hf : forges S right k A []
    · exact Or.inr hf
    · left
      have hk : play S right k A [] = true := hk
      rwa [play_ideal G right k A a [] hA hf] at hk
  have s2 : {k | playIdeal S reject (!right) k A [] = true} ⊆ {k | play S (!right) k A [] = true} ∪ {k | forges S (!right) k A []} := by
    intro k hk
    by_cases hf : forges S (!right) k A []
    · exact Or.inr hf
    · left
      show play S (!right) k A [] = true
      rwa [play_ideal G (!right) k A a [] hA hf]
  have t1 := (Set.ncard_le_ncard s1 (Set.toFinite _)).trans (Set.ncard_union_le _ _)
  have t2 := (Set.ncard_le_ncard s2 (Set.toFinite _)).trans (Set.ncard_union_le _ _)
  rw [h0] at t1
  nlinarith

theorem prob_forges [Finite K] [Nonempty K] (G : Good S blocks n num den reject) (hden : 0 < den) (right : Bool) (A : Adversary) (a : Nat)
    (hA : Within blocks n A a) : prob (fun k => forges S right k A []) ≤ a * num / den := by
  have h := forgery G right A a hA
  have hc : 0 < Nat.card K := Nat.card_pos
  unfold prob
  rw [div_le_div_iff₀ (by exact_mod_cast hc) (by exact_mod_cast hden)]
  exact_mod_cast h

theorem prob_play [Finite K] [Nonempty K] (G : Good S blocks n num den reject) (hden : 0 < den) (A : Adversary) (a : Nat)
    (hA : Within blocks n A a) :
    |prob (fun k => play S false k A [] = true) - prob (fun k => play S true k A [] = true)| ≤ 2 * (a * num / den) := by
  have h1 := distinguish G A a hA false
  have h2 := distinguish G A a hA true
  have hc : (0 : ℚ) < Nat.card K := by exact_mod_cast (Nat.card_pos : 0 < Nat.card K)
  have hd : (0 : ℚ) < den := by exact_mod_cast hden
  have e : (2 * (a * num / den) : ℚ) = 2 * (a * num * Nat.card K) / den / Nat.card K := by field_simp
  unfold prob
  rw [← sub_div, e, abs_div, abs_of_pos hc]
  refine div_le_div_of_nonneg_right ?_ hc.le
  rw [le_div_iff₀ hd, ← abs_of_pos hd, ← abs_mul, abs_le]
  have h1 : (({k | play S false k A [] = true}.ncard * den : ℕ) : ℚ) ≤ (({k | play S true k A [] = true}.ncard * den + 2 * (a * num * Nat.card K) : ℕ) : ℚ) := by exact_mod_cast h1
  have h2 : (({k | play S true k A [] = true}.ncard * den : ℕ) : ℚ) ≤ (({k | play S false k A [] = true}.ncard * den + 2 * (a * num * Nat.card K) : ℕ) : ℚ) := by exact_mod_cast h2
  push_cast at h1 h2
  constructor <;> linarith

end CryptoPure.Game
