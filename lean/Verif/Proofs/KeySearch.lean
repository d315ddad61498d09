import Verif.Spec.KeySearch
import Verif.Proofs.PermIdeal
import Verif.Proofs.Resample
import Mathlib.Algebra.BigOperators.Intervals

/-! # Trying keys -/

namespace CryptoPure.Proofs.KeySearch
open Game hiding play forges Within Adversary Log
open MultiGame

variable {u : Nat} {K X : Type}

/-! ## Random keys -/

theorem prob_coordinate [Finite K] [Nonempty K] (i : Fin u) (P : (Fin u → K) → Prop)
    (h : ∀ keys a b, P (Function.update keys i a) → P (Function.update keys i b) → a = b) : prob P ≤ 1 / Nat.card K := by
  classical
  have e := prob_equiv (Equiv.funSplitAt i K).symm P
  rw [← e]
  refine prob_prod_le _ _ fun rest => PermIdeal.prob_subsingleton fun a b ha hb => ?_
  have key : ∀ c, (Equiv.funSplitAt i K).symm (c, rest) = Function.update ((Equiv.funSplitAt i K).symm (a, rest)) i c := by
    intro c
    funext j
    by_cases hj : j = i
    · subst hj
      simp [Equiv.funSplitAt, Equiv.piSplitAt]
    · rw [Function.update_of_ne hj]
      simp [Equiv.funSplitAt, Equiv.piSplitAt, hj]
  rw [key a] at ha
  rw [key b] at hb
  exact h _ a b ha hb

theorem prob_at [Finite K] [Nonempty K] (i : Fin u) (k : K) : prob (fun keys : Fin u → K => keys i = k) = 1 / Nat.card K := by
  classical
  rw [← prob_equiv (Equiv.funSplitAt i K).symm (fun keys => keys i = k)]
  rw [show (fun a : K × ({j // j ≠ i} → K) => (Equiv.funSplitAt i K).symm a i = k) = (fun a => a.1 = k) by
    funext a; simp [Equiv.funSplitAt, Equiv.piSplitAt]]
  rw [prob_fst (fun a : K => a = k)]
  unfold prob
  rw [Set.ncard_eq_one.mpr ⟨k, by ext; simp⟩, Nat.cast_one]

theorem prob_hit [Finite K] [Nonempty K] (l : List K) : prob (fun keys : Fin u → K => ∃ k ∈ l, ∃ i, keys i = k) ≤ u * l.length / Nat.card K := by
  have h := ExtractIdeal.prob_exists_list (fun (k : K) (keys : Fin u → K) => ∃ i, keys i = k) (u / Nat.card K) l fun k _ => by
    refine (prob_exists _).trans ?_
    refine (Finset.sum_le_sum fun i _ => prob_coordinate (K := K) i (fun keys => keys i = k) fun keys a b ha hb => ?_).trans (le_of_eq ?_)
    · rw [Function.update_self] at ha hb
      exact ha.trans hb.symm
    · rw [Finset.sum_const, Finset.card_univ, Fintype.card_fin, nsmul_eq_mul, mul_one_div]
  exact h.trans (le_of_eq (by ring))

theorem prob_equal [Finite K] [Nonempty K] : prob (fun keys : Fin u → K => ¬ Function.Injective keys) ≤ u * (u - 1) / 2 / Nat.card K := by
  have h1 : ∀ j : Fin u, prob (fun keys : Fin u → K => ∃ l : Fin j.val, keys (l.castLE j.isLt.le) = keys j) ≤ (j.val : ℚ) * (1 / Nat.card K) := by
    intro j
    refine (prob_exists _).trans ?_
    refine (Finset.sum_le_sum fun l _ => prob_coordinate (K := K) j (fun keys => keys (l.castLE j.isLt.le) = keys j) fun keys a b ha hb => ?_).trans (le_of_eq ?_)
    · have hne : ((l.castLE j.isLt.le) : Fin u) ≠ j := fun e => by
        have h1 : l.val = j.val := congrArg Fin.val e
        have h2 := l.isLt
        omega
      rw [Function.update_self, Function.update_of_ne hne] at ha hb
      exact ha.symm.trans hb
    · rw [Finset.sum_const, Finset.card_univ, Fintype.card_fin, nsmul_eq_mul]
  refine (prob_mono (Q := fun keys : Fin u → K => ∃ j : Fin u, ∃ l : Fin j.val, keys (l.castLE j.isLt.le) = keys j) fun keys hk => ?_).trans
    ((prob_exists _).trans ((Finset.sum_le_sum fun j _ => h1 j).trans (le_of_eq ?_)))
  · rw [Function.Injective] at hk
    push Not at hk
    obtain ⟨i, j, e, hne⟩ := hk
    rcases lt_or_gt_of_ne (fun h => hne (Fin.ext h) : i.val ≠ j.val) with h | h
    · exact ⟨j, ⟨i.val, h⟩, e⟩
    · exact ⟨i, ⟨j.val, h⟩, e.symm⟩
  · rw [← Finset.sum_mul, Fin.sum_univ_eq_sum_range (fun j => (j : ℚ)) u]
    have := Finset.sum_range_id_mul_two u
    have h2 : (∑ j ∈ Finset.range u, (j : ℚ)) * 2 = u * (u - 1) := by
      rcases u with _ | u
      · simp
      · have h3 : ((∑ j ∈ Finset.range (u + 1), j : Nat) : ℚ) * 2 = ((u + 1) * u : Nat) := by exact_mod_cast this
        push_cast at h3
        push_cast
        rw [h3]
        ring
    rw [show (∑ j ∈ Finset.range u, (j : ℚ)) = u * (u - 1) / 2 by linarith]
    ring

/-! ## The users' functions may be independent of the cipher -/

theorem prob_near {α : Type} [Finite α] (P Q B : α → Prop) (h : ∀ a, ¬ B a → (P a ↔ Q a)) : |prob P - prob Q| ≤ prob B := by
  have h1 : prob P ≤ prob Q + prob B := (prob_mono fun a ha => by
    by_cases hb : B a
    · exact Or.inr hb
    · exact Or.inl ((h a hb).mp ha)).trans (prob_or Q B)
  have h2 : prob Q ≤ prob P + prob B := (prob_mono fun a ha => by
    by_cases hb : B a
    · exact Or.inr hb
    · exact Or.inl ((h a hb).mpr ha)).trans (prob_or P B)
  rw [abs_le]
  constructor <;> linarith

/-- The cipher with other functions for some keys. -/
noncomputable def put (keys : Fin u → K) (F : Fin u → X) (E : K → X) : K → X := fun k => by
  classical exact if h : ∃ i, keys i = k then F h.choose else E k

theorem put_key {keys : Fin u → K} (hk : Function.Injective keys) (F : Fin u → X) (E : K → X) (i : Fin u) : put keys F E (keys i) = F i := by
  unfold put
  have h : ∃ j, keys j = keys i := ⟨i, rfl⟩
  rw [dif_pos h, hk h.choose_spec]

theorem put_other {keys : Fin u → K} (F : Fin u → X) (E : K → X) {k : K} (h : ¬ ∃ i, keys i = k) : put keys F E k = E k := by
  unfold put
  rw [dif_neg h]

/-- Exchange. -/
noncomputable def exchange (ω : (Fin u → K) × ((K → X) × (Fin u → X))) : (Fin u → K) × ((K → X) × (Fin u → X)) := by
  classical exact if Function.Injective ω.1 then (ω.1, (put ω.1 ω.2.2 ω.2.1, fun i => ω.2.1 (ω.1 i))) else ω

theorem exchange_inj {ω : (Fin u → K) × ((K → X) × (Fin u → X))} (h : Function.Injective ω.1) :
    exchange ω = (ω.1, (put ω.1 ω.2.2 ω.2.1, fun i => ω.2.1 (ω.1 i))) := by
  unfold exchange
  rw [if_pos h]

theorem exchange_exchange : Function.Involutive (exchange : (Fin u → K) × ((K → X) × (Fin u → X)) → _) := by
  intro ω
  by_cases h : Function.Injective ω.1
  · rw [exchange_inj h, exchange_inj (ω := (ω.1, (put ω.1 ω.2.2 ω.2.1, fun i => ω.2.1 (ω.1 i)))) h]
    refine Prod.ext rfl (Prod.ext ?_ ?_)
    · funext k
      by_cases hk : ∃ i, ω.1 i = k
      · obtain ⟨i, rfl⟩ := hk
        exact put_key h _ _ i
      · exact (put_other _ _ hk).trans (put_other _ _ hk)
    · funext i
      exact put_key h _ _ i
  · have e : exchange ω = ω := by
      unfold exchange
      rw [if_neg h]
    rw [e, e]

theorem cipher_le [Finite K] [Nonempty K] [Finite X] [Nonempty X] (Out : (K → X) → (Fin u → X) → Prop) (asked : (K → X) → (Fin u → X) → List K) (p : Nat)
    (hp : ∀ E F, (asked E F).length ≤ p) (hloc : ∀ E E' F, (∀ k ∈ asked E F, E k = E' k) → (Out E F ↔ Out E' F)) :
    |prob (fun q : (Fin u → K) × (K → X) => Out q.2 fun i => q.2 (q.1 i)) - prob (fun q : (K → X) × (Fin u → X) => Out q.1 q.2)| ≤
      (u * p + u * (u - 1) / 2) / Nat.card K := by
  have e1 : prob (fun q : (Fin u → K) × (K → X) => Out q.2 fun i => q.2 (q.1 i)) =
      prob (fun ω : (Fin u → K) × ((K → X) × (Fin u → X)) => Out (exchange ω).2.1 fun i => (exchange ω).2.1 ((exchange ω).1 i)) := by
    refine Eq.trans ?_ (prob_equiv exchange_exchange.toPerm (fun ω : (Fin u → K) × ((K → X) × (Fin u → X)) => Out ω.2.1 fun i => ω.2.1 (ω.1 i))).symm
    refine Eq.trans ?_ (prob_equiv (Equiv.prodAssoc (Fin u → K) (K → X) (Fin u → X)) _)
    exact (prob_fst (β := Fin u → X) (fun q : (Fin u → K) × (K → X) => Out q.2 fun i => q.2 (q.1 i))).symm
  have e2 : prob (fun q : (K → X) × (Fin u → X) => Out q.1 q.2) = prob (fun ω : (Fin u → K) × ((K → X) × (Fin u → X)) => Out ω.2.1 ω.2.2) :=
    (prob_snd (α := Fin u → K) (fun q : (K → X) × (Fin u → X) => Out q.1 q.2)).symm
  rw [e1, e2]
  have hb : prob (fun ω : (Fin u → K) × ((K → X) × (Fin u → X)) => (∃ k ∈ asked ω.2.1 ω.2.2, ∃ i, ω.1 i = k) ∨ ¬ Function.Injective ω.1) ≤
      (u * p + u * (u - 1) / 2) / Nat.card K := by
    refine (prob_or _ _).trans ?_
    rw [add_div]
    refine add_le_add ?_ ?_
    · refine prob_prod_le _ _ fun EF => ?_
      refine (prob_hit (asked EF.1 EF.2)).trans ?_
      refine div_le_div_of_nonneg_right ?_ (by positivity)
      exact mul_le_mul_of_nonneg_left (by exact_mod_cast hp EF.1 EF.2) (by positivity)
    · refine prob_prod_le _ _ fun EF => ?_
      exact prob_equal
  refine (prob_near _ _ _ fun ω hω => ?_).trans hb
  rw [not_or, not_not] at hω
  obtain ⟨h1, h2⟩ := hω
  rw [exchange_inj h2]
  show Out (put ω.1 ω.2.2 ω.2.1) (fun i => put ω.1 ω.2.2 ω.2.1 (ω.1 i)) ↔ _
  rw [show (fun i => put ω.1 ω.2.2 ω.2.1 (ω.1 i)) = ω.2.2 from funext fun i => put_key h2 _ _ i]
  refine (hloc _ _ _ fun k hk => ?_).symm
  rw [put_other]
  exact fun hi => h1 ⟨k, hk, hi⟩

/-! ## The games -/

open CryptoPure.KeySearch

variable {C : Type} {S : Type}

/-- The keys under which the attacker enciphers or deciphers in a game. -/
def asked (Sc : Scheme S) (right : Bool) (ks : Fin u → S) (E : K → Equiv.Perm C) : Attacker u K C → Log u → List K
  | .stop _, _ => []
  | .encrypt user nonce data msg msg' buffer next, log =>
    if (user, nonce) ∈ log.map (fun e => (e.1, e.2.1)) ∨ msg.length ≠ msg'.length then asked Sc right ks E (next none) log
    else match Sc.enc (ks user) (if right then msg' else msg) nonce data buffer with
      | none => asked Sc right ks E (next none) log
      | some (ct, t) => asked Sc right ks E (next (some (ct, t))) ((user, nonce, data, ct, t) :: log)
  | .decrypt user nonce data ct t buffer next, log =>
    if (user, nonce, data, ct, t) ∈ log then asked Sc right ks E (next none) log
    else asked Sc right ks E (next (Sc.dec (ks user) ct nonce data t buffer)) log
  | .encipher key x next, log => key :: asked Sc right ks E (next (E key x)) log
  | .decipher key y next, log => key :: asked Sc right ks E (next ((E key).symm y)) log

theorem asked_length (Sc : Scheme S) (right : Bool) (ks : Fin u → S) (E : K → Equiv.Perm C) (A : Attacker u K C) (p : Nat) (h : A.Tries p) (log : Log u) :
    (asked Sc right ks E A log).length ≤ p := by
  induction A generalizing p log with
  | stop g => simp [asked]
  | encrypt i nonce data msg msg' buffer next ih =>
    unfold asked
    split
    · exact ih _ _ (h _) _
    · split
      · exact ih _ _ (h _) _
      · exact ih _ _ (h _) _
  | decrypt i nonce data ct t buffer next ih =>
    unfold asked
    split
    · exact ih _ _ (h _) _
    · exact ih _ _ (h _) _
  | encipher key x next ih =>
    obtain ⟨p, rfl, h⟩ := h
    exact Nat.succ_le_succ (ih _ _ (h _) _)
  | decipher key x next ih =>
    obtain ⟨p, rfl, h⟩ := h
    exact Nat.succ_le_succ (ih _ _ (h _) _)

theorem same (Sc : Scheme S) (right : Bool) (ks : Fin u → S) (E E' : K → Equiv.Perm C) (A : Attacker u K C) (log : Log u)
    (h : ∀ k ∈ asked Sc right ks E A log, E k = E' k) :
    play Sc right ks (A.given E) log = play Sc right ks (A.given E') log ∧
    (forges Sc right ks (A.given E) log ↔ forges Sc right ks (A.given E') log) := by
  induction A generalizing log with
  | stop g => exact ⟨rfl, Iff.rfl⟩
  | encrypt i nonce data msg msg' buffer next ih =>
    unfold asked at h
    unfold Attacker.given MultiGame.play MultiGame.forges
    by_cases hr : (i, nonce) ∈ log.map (fun e => (e.1, e.2.1)) ∨ msg.length ≠ msg'.length
    · simp only [if_pos hr] at h ⊢
      exact ih _ _ h
    · simp only [if_neg hr] at h ⊢
      cases e : Sc.enc (ks i) (if right = true then msg' else msg) nonce data buffer with
      | none =>
        simp only [e] at h
        exact ih _ _ h
      | some r =>
        simp only [e] at h
        exact ih _ _ h
  | decrypt i nonce data ct t buffer next ih =>
    unfold asked at h
    unfold Attacker.given MultiGame.play MultiGame.forges
    by_cases hr : (i, nonce, data, ct, t) ∈ log
    · simp only [if_pos hr] at h ⊢
      exact ih _ _ h
    · simp only [if_neg hr] at h ⊢
      obtain ⟨h1, h2⟩ := ih _ _ h
      exact ⟨h1, by rw [h2]⟩
  | encipher key x next ih =>
    have h1 : E key = E' key := h key (by simp [asked])
    unfold Attacker.given
    rw [← h1]
    exact ih _ _ fun k hk => h k (by simp [asked, hk])
  | decipher key x next ih =>
    have h1 : E key = E' key := h key (by simp [asked])
    unfold Attacker.given
    rw [← h1]
    exact ih _ _ fun k hk => h k (by simp [asked, hk])

end CryptoPure.Proofs.KeySearch
