import Verif.Proofs.Game
import Verif.Proofs.KeySearch

/-! # Ciphers with evenly distributed outputs: the general argument -/

namespace CryptoPure.Game.RandomAead
open CryptoPure.Game

variable {K K' : Type}

/-- A call of `enc` that does not panic. -/
def Shape (msg nonce buffer : Bytes) : Prop := nonce.length = 12 ∧ buffer.length = msg.length

/-- Encryptions return as many bytes as the message has and a tag of 16 bytes, and the keys with one result can be turned into keys with any other
result without changing encryptions under other nonces. -/
structure Even (S : Scheme K) (blocks : Nat → Nat → Nat) (n : Nat) : Prop where
  some : ∀ k msg nonce data buffer, blocks data.length msg.length ≤ n → Shape msg nonce buffer →
    ∃ c t, S.enc k msg nonce data buffer = Option.some (c, t) ∧ c.length = msg.length ∧ t.length = 16
  none : ∀ k msg nonce data buffer, blocks data.length msg.length ≤ n → ¬ Shape msg nonce buffer → S.enc k msg nonce data buffer = Option.none
  move : ∀ msg nonce data buffer c t c' t', blocks data.length msg.length ≤ n → Shape msg nonce buffer →
    c.length = msg.length → t.length = 16 → c'.length = msg.length → t'.length = 16 →
    ∃ φ : K → K, Set.InjOn φ {k | S.enc k msg nonce data buffer = Option.some (c, t)} ∧
      ∀ k, S.enc k msg nonce data buffer = Option.some (c, t) → S.enc (φ k) msg nonce data buffer = Option.some (c', t') ∧
        ∀ msg₂ nonce₂ data₂ buffer₂, nonce₂ ≠ nonce → S.enc (φ k) msg₂ nonce₂ data₂ buffer₂ = S.enc k msg₂ nonce₂ data₂ buffer₂

variable {S : Scheme K} {S' : Scheme K'} {blocks : Nat → Nat → Nat} {n : Nat}

/-- Strings of a length. -/
abbrev Out (l : Nat) := {b : Bytes // b.length = l}

theorem sent_length {q : Exchange} (right : Bool) (h : q.msg.length = q.msg'.length) : (q.sent right).length = q.msg.length := by
  unfold Exchange.sent
  split
  · exact h.symm
  · rfl

theorem fibre_le [Finite K] (E : Even S blocks n) (right : Bool) (qs : List Exchange) (msg nonce data buffer c t c' t' : Bytes)
    (hb : blocks data.length msg.length ≤ n) (hs : Shape msg nonce buffer) (hnew : nonce ∉ qs.map Exchange.nonce)
    (hc : c.length = msg.length) (ht : t.length = 16) (hc' : c'.length = msg.length) (ht' : t'.length = 16) :
    {k ∈ explain S right qs | S.enc k msg nonce data buffer = some (c, t)}.ncard ≤
      {k ∈ explain S right qs | S.enc k msg nonce data buffer = some (c', t')}.ncard := by
  obtain ⟨φ, h1, h2⟩ := E.move msg nonce data buffer c t c' t' hb hs hc ht hc' ht'
  refine Set.ncard_le_ncard_of_injOn φ ?_ (fun k hk k' hk' e => h1 hk.2 hk'.2 e) (Set.toFinite _)
  rintro k ⟨hk, e⟩
  obtain ⟨e1, e2⟩ := h2 k e
  refine ⟨fun q hq => ?_, e1⟩
  rw [e2 _ _ _ _ fun h => hnew (List.mem_map.mpr ⟨q, hq, h⟩)]
  exact hk q hq

/-- All results of an encryption under a new nonce are equally likely. -/
theorem fibre_card [Finite K] (E : Even S blocks n) (right : Bool) (qs : List Exchange) (msg nonce data buffer c t : Bytes)
    (hb : blocks data.length msg.length ≤ n) (hs : Shape msg nonce buffer) (hnew : nonce ∉ qs.map Exchange.nonce)
    (hc : c.length = msg.length) (ht : t.length = 16) [Finite (Out msg.length × Out 16)] :
    {k ∈ explain S right qs | S.enc k msg nonce data buffer = some (c, t)}.ncard * Nat.card (Out msg.length × Out 16) =
      (explain S right qs).ncard := by
  classical
  have : Fintype K := Fintype.ofFinite K
  have : Fintype (Out msg.length × Out 16) := Fintype.ofFinite _
  let f : K → Out msg.length × Out 16 := fun k =>
    if h : ∃ x : Out msg.length × Out 16, S.enc k msg nonce data buffer = some (x.1.1, x.2.1) then h.choose else (⟨c, hc⟩, ⟨t, ht⟩)
  have hf : ∀ k x, f k = x ↔ S.enc k msg nonce data buffer = some (x.1.1, x.2.1) := by
    intro k x
    obtain ⟨c1, t1, e1, e2, e3⟩ := E.some k msg nonce data buffer hb hs
    have h : ∃ x : Out msg.length × Out 16, S.enc k msg nonce data buffer = some (x.1.1, x.2.1) := ⟨(⟨c1, e2⟩, ⟨t1, e3⟩), e1⟩
    have hd : f k = h.choose := dif_pos h
    have hx := h.choose_spec
    rw [hd]
    constructor
    · rintro rfl; exact hx
    · intro e
      have hx := e.symm.trans hx
      simp only [Option.some.injEq, Prod.mk.injEq] at hx
      exact Prod.ext (Subtype.ext hx.1.symm) (Subtype.ext hx.2.symm)
  rw [Set.ncard_eq_toFinset_card' (explain S right qs), Finset.card_eq_sum_card_fiberwise (f := f) (t := Finset.univ) (fun _ _ => by simp)]
  rw [Finset.sum_congr rfl (g := fun _ => {k ∈ explain S right qs | S.enc k msg nonce data buffer = some (c, t)}.ncard), Finset.sum_const, Finset.card_univ,
    Nat.card_eq_fintype_card, smul_eq_mul, mul_comm]
  intro x _
  have e : (Finset.filter (fun k => f k = x) (explain S right qs).toFinset).card =
      {k ∈ explain S right qs | S.enc k msg nonce data buffer = some (x.1.1, x.2.1)}.ncard := by
    rw [Set.ncard_eq_toFinset_card']
    congr 1
    ext k
    simp [hf]
  rw [e]
  exact le_antisymm (fibre_le E right qs msg nonce data buffer _ _ _ _ hb hs hnew x.1.2 x.2.2 hc ht)
    (fibre_le E right qs msg nonce data buffer _ _ _ _ hb hs hnew hc ht x.1.2 x.2.2)

theorem ncard_fibres_eq {α α' β : Type} [Finite α] [Finite α'] (f : α → β) (g : α' → β) (A : Set α) (B : Set α') (c d : Nat)
    (h : ∀ r, {x ∈ A | f x = r}.ncard * c = {x ∈ B | g x = r}.ncard * d) : A.ncard * c = B.ncard * d := by
  classical
  have : Fintype α := Fintype.ofFinite α
  have : Fintype α' := Fintype.ofFinite α'
  rw [Set.ncard_eq_toFinset_card', Set.ncard_eq_toFinset_card']
  have hS : ∀ x ∈ A.toFinset, f x ∈ Finset.univ.image f ∪ Finset.univ.image g := fun x _ => by simp
  have hT : ∀ x ∈ B.toFinset, g x ∈ Finset.univ.image f ∪ Finset.univ.image g := fun x _ => by simp
  rw [Finset.card_eq_sum_card_fiberwise hS, Finset.card_eq_sum_card_fiberwise hT, Finset.sum_mul, Finset.sum_mul]
  refine Finset.sum_congr rfl fun r _ => ?_
  have := h r
  rw [Set.ncard_eq_toFinset_card', Set.ncard_eq_toFinset_card'] at this
  convert this using 3 <;> (ext; simp)

instance (l : Nat) : Finite (Out l) := by
  have : Finite U8 := Finite.of_injective BitVec.toFin (fun _ _ h => BitVec.toFin_inj.mp h)
  have : Fintype U8 := Fintype.ofFinite _
  exact Finite.of_fintype (List.Vector U8 l)

instance (l : Nat) : Nonempty (Out l) := ⟨⟨zeros l, by simp⟩⟩

/-- Two such ciphers look the same as long as decryptions are refused. -/
theorem same_counts [Finite K] [Finite K'] (E : Even S blocks n) (E' : Even S' blocks n)
    (reject : (ct nonce data tag buffer : Bytes) → Option (Bytes × Bool)) (right : Bool) (A : Adversary) (a : Nat) (hA : Within blocks n A a)
    (qs : List Exchange) (h : (explain S right qs).ncard * Nat.card K' = (explain S' right qs).ncard * Nat.card K) :
    {k ∈ explain S right qs | playIdeal S reject right k A (qs.map Exchange.seen) = true}.ncard * Nat.card K' =
      {k ∈ explain S' right qs | playIdeal S' reject right k A (qs.map Exchange.seen) = true}.ncard * Nat.card K := by
  induction A generalizing a qs with
  | stop g =>
    unfold playIdeal
    cases g
    · simp
    · simpa using h
  | encrypt nonce data msg msg' buffer next ih =>
    unfold playIdeal
    rw [log_nonces]
    by_cases hr : nonce ∈ qs.map Exchange.nonce ∨ msg.length ≠ msg'.length
    · simp only [if_pos hr]
      exact ih _ _ (hA.2 _) qs h
    · simp only [if_neg hr]
      rw [not_or, not_not] at hr
      obtain ⟨x, hx⟩ : ∃ x, x = if right = true then msg' else msg := ⟨_, rfl⟩
      have hl : x.length = msg.length := by
        rw [hx]
        split
        · exact hr.2.symm
        · rfl
      rw [← hx]
      have hb : blocks data.length x.length ≤ n := by rw [hl]; exact hA.1
      by_cases hs : Shape x nonce buffer
      · refine ncard_fibres_eq (fun k => S.enc k x nonce data buffer) (fun k => S'.enc k x nonce data buffer) _ _ _ _ fun r => ?_
        by_cases hgood : ∃ c t, r = some (c, t) ∧ c.length = x.length ∧ t.length = 16
        · obtain ⟨c, t, rfl, hc, ht⟩ := hgood
          have k1 := fibre_card E right qs x nonce data buffer c t hb hs hr.1 hc ht
          have k2 := fibre_card E' right qs x nonce data buffer c t hb hs hr.1 hc ht
          have hpos : 0 < Nat.card (Out x.length × Out 16) := Nat.card_pos
          have := ih (some (c, t)) a (hA.2 _) (⟨nonce, data, msg, msg', buffer, c, t⟩ :: qs) (by
            rw [explain_cons, explain_cons]
            show {k ∈ explain S right qs | S.enc k (if right = true then msg' else msg) nonce data buffer = some (c, t)}.ncard * _ =
              {k ∈ explain S' right qs | S'.enc k (if right = true then msg' else msg) nonce data buffer = some (c, t)}.ncard * _
            rw [← hx]
            rw [← k1, ← k2] at h
            refine Nat.eq_of_mul_eq_mul_right hpos ?_
            rw [Nat.mul_right_comm, h, Nat.mul_right_comm])
          rw [explain_cons, explain_cons] at this
          have hsent : (⟨nonce, data, msg, msg', buffer, c, t⟩ : Exchange).sent right = x := hx.symm
          convert this using 2
          · congr 1
            ext k
            constructor
            · rintro ⟨⟨h1, h2⟩, h3⟩
              have h3 : S.enc k x nonce data buffer = some (c, t) := h3
              simp only [h3] at h2
              exact ⟨⟨h1, by rw [hsent]; exact h3⟩, h2⟩
            · rintro ⟨⟨h1, h2⟩, h3⟩
              rw [hsent] at h2
              have h2 : S.enc k x nonce data buffer = some (c, t) := h2
              refine ⟨⟨h1, ?_⟩, h2⟩
              simp only [h2]
              exact h3
          · congr 1
            ext k
            constructor
            · rintro ⟨⟨h1, h2⟩, h3⟩
              have h3 : S'.enc k x nonce data buffer = some (c, t) := h3
              simp only [h3] at h2
              exact ⟨⟨h1, by rw [hsent]; exact h3⟩, h2⟩
            · rintro ⟨⟨h1, h2⟩, h3⟩
              rw [hsent] at h2
              have h2 : S'.enc k x nonce data buffer = some (c, t) := h2
              refine ⟨⟨h1, ?_⟩, h2⟩
              simp only [h2]
              exact h3
        · have z1 : ∀ (X : Set K), {k ∈ X | S.enc k x nonce data buffer = r} = ∅ := fun X => by
            ext k
            simp only [Set.mem_ofPred_eq, Set.mem_empty_iff_false, iff_false, not_and]
            rintro - rfl
            exact hgood (E.some k x nonce data buffer hb hs)
          have z2 : ∀ (X : Set K'), {k ∈ X | S'.enc k x nonce data buffer = r} = ∅ := fun X => by
            ext k
            simp only [Set.mem_ofPred_eq, Set.mem_empty_iff_false, iff_false, not_and]
            rintro - rfl
            exact hgood (E'.some k x nonce data buffer hb hs)
          rw [z1, z2]
          simp
      · simp only [E.none _ _ _ _ _ hb hs, E'.none _ _ _ _ _ hb hs]
        exact ih _ _ (hA.2 _) qs h
  | decrypt nonce data ct t buffer next ih =>
    obtain ⟨h1, b, rfl, h2⟩ := hA
    unfold playIdeal
    by_cases hr : (nonce, data, ct, t) ∈ qs.map Exchange.seen
    · simp only [if_pos hr]
      exact ih _ _ (h2 _) qs h
    · simp only [if_neg hr]
      exact ih _ _ (h2 _) qs h

theorem same_ideal [Finite K] [Finite K'] [Nonempty K] [Nonempty K'] (E : Even S blocks n) (E' : Even S' blocks n)
    (reject : (ct nonce data tag buffer : Bytes) → Option (Bytes × Bool)) (right : Bool) (A : Adversary) (a : Nat) (hA : Within blocks n A a) :
    prob (fun k => playIdeal S reject right k A [] = true) = prob (fun k => playIdeal S' reject right k A [] = true) := by
  have h := same_counts E E' reject right A a hA [] (by rw [explain_nil, explain_nil, Set.ncard_univ, Set.ncard_univ, mul_comm])
  rw [explain_nil, explain_nil] at h
  simp only [Set.mem_univ, true_and, List.map_nil] at h
  have hc : (Nat.card K : ℚ) ≠ 0 := by exact_mod_cast (Nat.card_pos : 0 < Nat.card K).ne'
  have hc' : (Nat.card K' : ℚ) ≠ 0 := by exact_mod_cast (Nat.card_pos : 0 < Nat.card K').ne'
  unfold prob
  rw [div_eq_div_iff hc hc']
  exact_mod_cast h

theorem rejecting (reject : (ct nonce data tag buffer : Bytes) → Option (Bytes × Bool))
    (h : ∀ k ct nonce data t buffer, blocks data.length ct.length ≤ n → S.dec k ct nonce data t buffer = reject ct nonce data t buffer)
    (right : Bool) (k : K) (A : Adversary) (a : Nat) (hA : Within blocks n A a) (log : Log) :
    play S right k A log = playIdeal S reject right k A log := by
  induction A generalizing a log with
  | stop g => rfl
  | encrypt nonce data msg msg' buffer next ih =>
    unfold play playIdeal
    split
    · exact ih _ _ (hA.2 _) _
    · generalize S.enc k _ nonce data buffer = r
      match r with
      | none => exact ih _ _ (hA.2 _) _
      | some (ct, t) => exact ih _ _ (hA.2 _) _
  | decrypt nonce data ct t buffer next ih =>
    obtain ⟨h1, b, rfl, h2⟩ := hA
    unfold play playIdeal
    split
    · exact ih _ _ (h2 _) _
    · rw [h _ _ _ _ _ _ h1]
      exact ih _ _ (h2 _) _

/-- A cipher with even outputs that is hard to forge looks like one with even outputs that rejects everything. -/
theorem near [Finite K] [Finite K'] [Nonempty K] [Nonempty K'] {num den : Nat} {reject : (ct nonce data tag buffer : Bytes) → Option (Bytes × Bool)}
    (G : Good S blocks n num den reject) (hden : 0 < den) (E : Even S blocks n) (E' : Even S' blocks n)
    (h : ∀ k ct nonce data t buffer, blocks data.length ct.length ≤ n → S'.dec k ct nonce data t buffer = reject ct nonce data t buffer)
    (right : Bool) (A : Adversary) (a : Nat) (hA : Within blocks n A a) :
    |prob (fun k => play S right k A [] = true) - prob (fun k => play S' right k A [] = true)| ≤ a * num / den := by
  have e : prob (fun k => play S' right k A [] = true) = prob (fun k => playIdeal S reject right k A [] = true) := by
    rw [same_ideal E E' reject right A a hA]
    simp only [rejecting reject h right _ A a hA]
  rw [e]
  refine (Proofs.KeySearch.prob_near _ _ (fun k => forges S right k A []) fun k hk => ?_).trans (prob_forges G hden right A a hA)
  rw [play_ideal G right k A a [] hA hk]

end CryptoPure.Game.RandomAead
