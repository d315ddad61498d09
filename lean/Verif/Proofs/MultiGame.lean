import Verif.Spec.MultiGame
import Verif.Proofs.Game
import Mathlib.SetTheory.Cardinal.Finite
import Mathlib.Algebra.BigOperators.Pi
import Mathlib.Data.Fintype.BigOperators
import Mathlib.Tactic.Ring
import Verif.Proofs.Reduce
import Verif.Spec.MultiDistinguisher

/-! # Many keys: reduction to one key by putting the user into the nonce -/

namespace CryptoPure.MultiGame
open Game (Scheme Good Legal Exchange explain)
open Distinguisher

theorem decode_code (i : Nat) (nonce : Bytes) : decode (code i nonce) = some (i, nonce) := by
  induction i with
  | zero => rfl
  | succ i ih =>
    show decode (1 :: code i nonce) = _
    rw [decode, if_neg (by decide), if_pos rfl, ih]
    rfl

theorem code_decode {b : Bytes} {i : Nat} {nonce : Bytes} (h : decode b = some (i, nonce)) : b = code i nonce := by
  induction b generalizing i nonce with
  | nil => cases h
  | cons c b ih =>
    rw [decode] at h
    split at h
    · cases h; subst_vars; rfl
    · split at h
      · cases hd : decode b with
        | none => rw [hd] at h; cases h
        | some p =>
          rw [hd] at h
          cases h
          rw [ih hd]
          subst_vars
          rfl
      · cases h

theorem code_inj {i j : Nat} {x y : Bytes} (h : code i x = code j y) : i = j ∧ x = y := by
  have := decode_code i x
  rw [h, decode_code] at this
  cases this
  exact ⟨rfl, rfl⟩

variable {K : Type} {u : Nat}

theorem user_code (i : Fin u) (nonce : Bytes) : user u (code i nonce) = some (i, nonce) := by
  unfold user
  rw [decode_code]
  simp

theorem code_user {b : Bytes} {i : Fin u} {nonce : Bytes} (h : user u b = some (i, nonce)) : b = code i nonce := by
  unfold user at h
  split at h
  · cases h
  · rename_i j x hd
    split at h
    · cases h; exact code_decode hd
    · cases h

theorem all_enc (S : Scheme K) (k : Fin u → K) (i : Fin u) (msg nonce data buffer : Bytes) :
    (all u S).enc k msg (code i nonce) data buffer = S.enc (k i) msg nonce data buffer := by
  simp only [all, user_code]

theorem all_dec (S : Scheme K) (k : Fin u → K) (i : Fin u) (ct nonce data t buffer : Bytes) :
    (all u S).dec k ct (code i nonce) data t buffer = S.dec (k i) ct nonce data t buffer := by
  simp only [all, user_code]

/-- An entry of the log. -/
def entry (e : Fin u × Bytes × Bytes × Bytes × Bytes) : Bytes × Bytes × Bytes × Bytes := (code e.1 e.2.1, e.2.2)

theorem entry_inj : Function.Injective (entry (u := u)) := by
  rintro ⟨i, n, d, c, t⟩ ⟨j, n', d', c', t'⟩ h
  simp only [entry, Prod.mk.injEq] at h
  obtain ⟨h1, h2⟩ := code_inj h.1
  simp only [Prod.mk.injEq]
  exact ⟨Fin.ext h1, h2, h.2⟩

theorem mem_entry (log : Log u) (e : Fin u × Bytes × Bytes × Bytes × Bytes) : entry e ∈ log.map entry ↔ e ∈ log :=
  List.mem_map_of_injective entry_inj

theorem mem_nonce (log : Log u) (i : Fin u) (nonce : Bytes) :
    code i nonce ∈ (log.map entry).map Prod.fst ↔ (i, nonce) ∈ log.map (fun e => (e.1, e.2.1)) := by
  rw [List.map_map, List.mem_map, List.mem_map]
  constructor
  · rintro ⟨e, h1, h2⟩
    obtain ⟨h3, h4⟩ := code_inj h2
    exact ⟨e, h1, by rw [Prod.mk.injEq]; exact ⟨Fin.ext h3, h4⟩⟩
  · rintro ⟨e, h1, h2⟩
    rw [Prod.mk.injEq] at h2
    exact ⟨e, h1, by rw [← h2.1, ← h2.2]; rfl⟩

theorem play_single (S : Scheme K) (right : Bool) (k : Fin u → K) (A : Adversary u) (log : Log u) :
    Game.play (all u S) right k (single A) (log.map entry) = play S right k A log := by
  induction A generalizing log with
  | stop g => rfl
  | encrypt i nonce data msg msg' buffer next ih =>
    rw [single, Game.play, play, all_enc]
    simp only [mem_nonce]
    split
    · exact ih _ _
    · cases hE : S.enc (k i) (if right then msg' else msg) nonce data buffer with
      | none => exact ih _ _
      | some r => exact ih _ ((i, nonce, data, r.1, r.2) :: log)
  | decrypt i nonce data ct t buffer next ih =>
    rw [single, Game.play, play, all_dec]
    have := mem_entry log (i, nonce, data, ct, t)
    rw [show entry (i, nonce, data, ct, t) = (code i nonce, data, ct, t) from rfl] at this
    simp only [this]
    split
    · exact ih _ _
    · exact ih _ _

theorem forges_single (S : Scheme K) (right : Bool) (k : Fin u → K) (A : Adversary u) (log : Log u) :
    Game.forges (all u S) right k (single A) (log.map entry) ↔ forges S right k A log := by
  induction A generalizing log with
  | stop g => rfl
  | encrypt i nonce data msg msg' buffer next ih =>
    rw [single, Game.forges, forges, all_enc]
    simp only [mem_nonce]
    split
    · exact ih _ _
    · cases hE : S.enc (k i) (if right then msg' else msg) nonce data buffer with
      | none => exact ih _ _
      | some r => exact ih _ ((i, nonce, data, r.1, r.2) :: log)
  | decrypt i nonce data ct t buffer next ih =>
    rw [single, Game.forges, forges, all_dec]
    have := mem_entry log (i, nonce, data, ct, t)
    rw [show entry (i, nonce, data, ct, t) = (code i nonce, data, ct, t) from rfl] at this
    simp only [this]
    split
    · exact ih _ _
    · rw [ih]

theorem within_single (blocks : Nat → Nat → Nat) (n : Nat) (A : Adversary u) (a : Nat) (h : Within blocks n A a) :
    Game.Within blocks n (single A) a := by
  induction A generalizing a with
  | stop g => trivial
  | encrypt i nonce data msg msg' buffer next ih => exact ⟨h.1, fun r => ih r _ (h.2 r)⟩
  | decrypt i nonce data ct t buffer next ih =>
    obtain ⟨h1, b, e, h2⟩ := h
    exact ⟨h1, b, e, fun r => ih r _ (h2 r)⟩

/-! ## The hypotheses of the general argument -/

theorem ncard_pi [Finite K] (T : Fin u → Set K) : {k : Fin u → K | ∀ i, k i ∈ T i}.ncard = ∏ i, (T i).ncard := by
  have e : {k : Fin u → K | ∀ i, k i ∈ T i} ≃ ∀ i, T i :=
    { toFun := fun k i => ⟨k.1 i, k.2 i⟩
      invFun := fun k => ⟨fun i => (k i).1, fun i => (k i).2⟩
      left_inv := fun k => rfl
      right_inv := fun k => rfl }
  rw [← Nat.card_coe_set_eq, Nat.card_congr e, Nat.card_pi]
  exact Finset.prod_congr rfl fun i _ => Nat.card_coe_set_eq _

/-- The exchanges of user `i`. -/
def ofUser (i : Fin u) (qs : List Exchange) : List Exchange :=
  qs.filterMap fun q => match user u q.nonce with
    | none => none
    | some (j, nonce) => if j = i then some { q with nonce := nonce } else none

theorem mem_ofUser (i : Fin u) (qs : List Exchange) (q' : Exchange) :
    q' ∈ ofUser i qs ↔ ∃ q ∈ qs, q.nonce = code i q'.nonce ∧ q' = { q with nonce := q'.nonce } := by
  unfold ofUser
  rw [List.mem_filterMap]
  refine exists_congr fun q => and_congr_right fun hq => ?_
  constructor
  · intro h
    split at h
    · cases h
    · rename_i j nonce hu
      split at h
      · subst_vars
        cases h
        exact ⟨code_user hu, rfl⟩
      · cases h
  · rintro ⟨h1, h2⟩
    rw [h1, user_code]
    simp only [if_true]
    rw [← h2]

theorem explain_all (S : Scheme K) (right : Bool) (qs : List Exchange) (hu : ∀ q ∈ qs, user u q.nonce ≠ none) :
    explain (all u S) right qs = {k | ∀ i, k i ∈ explain S right (ofUser i qs)} := by
  ext k
  simp only [explain, Set.mem_ofPred_eq]
  constructor
  · intro h i q' hq'
    obtain ⟨q, hq, h1, h2⟩ := (mem_ofUser i qs q').mp hq'
    have := h q hq
    rw [h1, all_enc] at this
    rw [h2]
    exact this
  · intro h q hq
    obtain ⟨⟨i, nonce⟩, hi⟩ := Option.ne_none_iff_exists'.mp (hu q hq)
    have e := code_user hi
    rw [e, all_enc]
    exact h i { q with nonce := nonce } ((mem_ofUser i qs _).mpr ⟨q, hq, e, rfl⟩)

theorem explain_empty (S : Scheme K) (right : Bool) (qs : List Exchange) (q : Exchange) (hq : q ∈ qs) (hu : user u q.nonce = none) :
    explain (all u S) right qs = ∅ := by
  ext k
  simp only [explain, Set.mem_ofPred_eq, Set.mem_empty_iff_false, iff_false]
  intro h
  have := h q hq
  simp only [all, hu] at this
  cases this

theorem legal_ofUser {blocks : Nat → Nat → Nat} {n : Nat} {qs : List Exchange} (h : Legal blocks n qs) (i : Fin u) :
    Legal blocks n (ofUser i qs) := by
  refine ⟨?_, ?_, ?_⟩
  · have h1 := h.nodup
    clear h
    induction qs with
    | nil => simp [ofUser]
    | cons q qs ih =>
      rw [List.map_cons, List.nodup_cons] at h1
      unfold ofUser
      rw [List.filterMap_cons]
      split
      · exact ih h1.2
      · rename_i q' hq'
        rw [List.map_cons, List.nodup_cons]
        refine ⟨fun hm => h1.1 ?_, ih h1.2⟩
        obtain ⟨p, hp, hpe⟩ := List.mem_map.mp hm
        obtain ⟨r, hr, hr1, -⟩ := (mem_ofUser i qs p).mp hp
        have hq : q' ∈ ofUser i [q] := by
          unfold ofUser
          rw [List.filterMap_cons, hq']
          exact List.mem_cons_self ..
        obtain ⟨s, hs, hs1, -⟩ := (mem_ofUser i [q] q').mp hq
        rw [List.mem_singleton] at hs
        subst hs
        exact List.mem_map.mpr ⟨r, hr, by rw [hr1, hs1, hpe]⟩
  · intro q' hq'
    obtain ⟨q, hq, -, h2⟩ := (mem_ofUser i qs q').mp hq'
    rw [h2]; exact h.len q hq
  · intro q' hq'
    obtain ⟨q, hq, -, h2⟩ := (mem_ofUser i qs q').mp hq'
    rw [h2]; exact h.small q hq

/-- The answer to a decryption that does not succeed. -/
def rejectAll (u : Nat) (reject : (ct nonce data tag buffer : Bytes) → Option (Bytes × Bool)) (ct nonce data t buffer : Bytes) :
    Option (Bytes × Bool) :=
  match user u nonce with
  | none => none
  | some (_, nonce) => reject ct nonce data t buffer

theorem good_all [Finite K] {S : Scheme K} {blocks : Nat → Nat → Nat} {n num den : Nat}
    {reject : (ct nonce data tag buffer : Bytes) → Option (Bytes × Bool)} (G : Good S blocks n num den reject) :
    Good (all u S) blocks n num den (rejectAll u reject) where
  hide qs h := by
    by_cases hu : ∀ q ∈ qs, user u q.nonce ≠ none
    · rw [explain_all S _ qs hu, explain_all S _ qs hu, ncard_pi, ncard_pi]
      exact Finset.prod_congr rfl fun i _ => G.hide _ (legal_ofUser h i)
    · simp only [not_forall, not_not] at hu
      obtain ⟨q, hq, hu⟩ := hu
      rw [explain_empty S _ qs q hq hu, explain_empty S _ qs q hq hu]
  panic k k' msg msg' nonce data buffer hl h := by
    simp only [all] at h ⊢
    split
    · rfl
    · rename_i i nonce' hu
      rw [hu] at h
      exact G.panic (k i) (k' i) msg msg' nonce' data buffer hl h
  forge right qs h nonce data ct t buffer hb hnew := by
    by_cases hu : ∀ q ∈ qs, user u q.nonce ≠ none
    · rw [explain_all S _ qs hu]
      cases hn : user u nonce with
      | none =>
        have : {k ∈ {k : Fin u → K | ∀ i, k i ∈ explain S right (ofUser i qs)} |
            ∃ out, (all u S).dec k ct nonce data t buffer = some (out, true)} = ∅ := by
          ext k
          simp [all, hn]
        rw [this]; simp
      | some p =>
        obtain ⟨i, nonce'⟩ := p
        have hc := code_user hn
        have e : {k ∈ {k : Fin u → K | ∀ i, k i ∈ explain S right (ofUser i qs)} |
            ∃ out, (all u S).dec k ct nonce data t buffer = some (out, true)} =
            {k | ∀ j, k j ∈ Function.update (fun j => explain S right (ofUser j qs)) i
              {x ∈ explain S right (ofUser i qs) | ∃ out, S.dec x ct nonce' data t buffer = some (out, true)} j} := by
          ext k
          simp only [Set.mem_ofPred_eq, hc, all_dec]
          constructor
          · rintro ⟨h1, h2⟩ j
            by_cases hj : j = i
            · subst hj
              rw [Function.update_self]
              exact ⟨h1 j, h2⟩
            · rw [Function.update_of_ne hj]
              exact h1 j
          · intro h1
            refine ⟨fun j => ?_, ?_⟩
            · have := h1 j
              by_cases hj : j = i
              · subst hj
                rw [Function.update_self] at this
                exact this.1
              · rw [Function.update_of_ne hj] at this
                exact this
            · have := h1 i
              rw [Function.update_self] at this
              exact this.2
        rw [e, ncard_pi, ncard_pi]
        have h3 := G.forge right (ofUser i qs) (legal_ofUser h i) nonce' data ct t buffer hb (by
          intro hm
          obtain ⟨q', hq', he⟩ := List.mem_map.mp hm
          obtain ⟨q, hq, h1, h2⟩ := (mem_ofUser i qs q').mp hq'
          refine hnew (List.mem_map.mpr ⟨q, hq, ?_⟩)
          rw [h2] at he
          simp only [Exchange.seen, Prod.mk.injEq] at he ⊢
          exact ⟨by rw [h1, hc, he.1], he.2⟩)
        rw [← Finset.mul_prod_erase _ _ (Finset.mem_univ i), ← Finset.mul_prod_erase _ _ (Finset.mem_univ i), Function.update_self]
        have e2 : ∏ j ∈ Finset.univ.erase i, (Function.update (fun j => explain S right (ofUser j qs)) i
              {x ∈ explain S right (ofUser i qs) | ∃ out, S.dec x ct nonce' data t buffer = some (out, true)} j).ncard =
            ∏ j ∈ Finset.univ.erase i, (explain S right (ofUser j qs)).ncard :=
          Finset.prod_congr rfl fun j hj => by rw [Function.update_of_ne (Finset.ne_of_mem_erase hj)]
        rw [e2]
        calc _ = ({x ∈ explain S right (ofUser i qs) | ∃ out, S.dec x ct nonce' data t buffer = some (out, true)}.ncard * den) *
              ∏ j ∈ Finset.univ.erase i, (explain S right (ofUser j qs)).ncard := by ring
          _ ≤ (num * (explain S right (ofUser i qs)).ncard) * ∏ j ∈ Finset.univ.erase i, (explain S right (ofUser j qs)).ncard :=
            Nat.mul_le_mul_right _ h3
          _ = _ := by ring
    · simp only [not_forall, not_not] at hu
      obtain ⟨q, hq, hu⟩ := hu
      rw [explain_empty S _ qs q hq hu]
      simp
  rej k ct nonce data t buffer hb := by
    simp only [all, rejectAll]
    cases hu : user u nonce with
    | none => exact Or.inl rfl
    | some p => exact G.rej (k p.1) ct p.2 data t buffer hb

/-! ## The distinguishers -/

variable {α β : Type} [DecidableEq α] [Inhabited β]

theorem local_over {S : Scheme (α → β)} {points : Bytes → Nat → List α} (hL : Local S points) :
    Local (over u S) (pointsOver u points) := by
  constructor
  · intro F F' msg nonce data buffer h
    simp only [over, all]
    unfold pointsOver at h
    cases hu : user u nonce with
    | none => rfl
    | some p =>
      rw [hu] at h
      exact hL.enc _ _ _ _ _ _ fun x hx => h _ (List.mem_map_of_mem hx)
  · intro F F' ct nonce data t buffer h
    simp only [over, all]
    unfold pointsOver at h
    cases hu : user u nonce with
    | none => rfl
    | some p =>
      rw [hu] at h
      exact hL.dec _ _ _ _ _ _ _ fun x hx => h _ (List.mem_map_of_mem hx)

theorem pointsOver_length {points : Bytes → Nat → List α} {cost : Nat → Nat} (hc : ∀ nonce l, (points nonce l).length ≤ cost l)
    (nonce : Bytes) (l : Nat) : (pointsOver u points nonce l).length ≤ cost l := by
  unfold pointsOver
  cases hu : user u nonce with
  | none => simp
  | some p => simpa using hc p.2 l

theorem costs_single (cost : Nat → Nat) (A : Adversary u) (s : Nat) (h : Costs cost A s) : Distinguisher.Costs cost (single A) s := by
  induction A generalizing s with
  | stop g => trivial
  | encrypt i nonce data msg msg' buffer next ih =>
    obtain ⟨s', e, h⟩ := h
    exact ⟨s', e, fun r => ih r _ (h r)⟩
  | decrypt i nonce data ct t buffer next ih =>
    obtain ⟨s', e, h⟩ := h
    exact ⟨s', e, fun r => ih r _ (h r)⟩

theorem tests_ask {S : Scheme (α → β)} {points : Bytes → Nat → List α} {cost : Nat → Nat}
    (hc : ∀ nonce l, (points nonce l).length ≤ cost l) (right : Bool) (A : Adversary u) (s : Nat) (hA : Costs cost A s) :
    (forgeryTest S points right A).Asks s ∧ (guessTest S points right A).Asks s :=
  ⟨(tests_asks cost (pointsOver_length hc) right (single A) s (costs_single cost A s hA) []).2,
    (tests_asks cost (pointsOver_length hc) right (single A) s (costs_single cost A s hA) []).1⟩

theorem over_congr {K' : Type} {S : Scheme (α → β)} {S' : Scheme K'} (k : Fin u → K') (real : K' → α → β)
    (h : ∀ k, S'.enc k = S.enc (real k) ∧ S'.dec k = S.dec (real k)) (right : Bool) (A : Adversary u) (log : Log u) :
    play S' right k A log = play S right (fun i => real (k i)) A log ∧
    (forges S' right k A log ↔ forges S right (fun i => real (k i)) A log) := by
  induction A generalizing log with
  | stop g => exact ⟨rfl, Iff.rfl⟩
  | encrypt i nonce data msg msg' buffer next ih =>
    simp only [play, forges, (h (k i)).1]
    split
    · exact ih _ _
    · cases hE : S.enc (real (k i)) (if right then msg' else msg) nonce data buffer with
      | none => exact ih _ _
      | some r => exact ih _ _
  | decrypt i nonce data ct t buffer next ih =>
    simp only [play, forges, (h (k i)).2]
    split
    · exact ih _ _
    · exact ⟨(ih _ _).1, or_congr Iff.rfl (ih _ _).2⟩

theorem tests_run {S : Scheme (α → β)} {points : Bytes → Nat → List α} (hL : Local S points) (right : Bool) (A : Adversary u)
    (F : Fin u → α → β) :
    ((forgeryTest S points right A).run (fun x => F x.1 x.2) = true ↔ forges S right F A []) ∧
    (guessTest S points right A).run (fun x => F x.1 x.2) = play S right F A [] := by
  constructor
  · unfold forgeryTest
    rw [forgeryTest_run (local_over hL), ← forges_single]
    have h1 : ∀ B log, Game.forges (over u S) right (fun x : Fin u × α => F x.1 x.2) B log ↔ Game.forges (all u S) right F B log := by
      intro B log
      induction B generalizing log with
      | stop g => rfl
      | encrypt nonce data msg msg' buffer next ih => unfold Game.forges; simp only [ih]; rfl
      | decrypt nonce data ct t buffer next ih => unfold Game.forges; simp only [ih]; rfl
    exact h1 _ _
  · unfold guessTest
    rw [guessTest_run (local_over hL), ← play_single]
    have h1 : ∀ B log, Game.play (over u S) right (fun x : Fin u × α => F x.1 x.2) B log = Game.play (all u S) right F B log := by
      intro B log
      induction B generalizing log with
      | stop g => rfl
      | encrypt nonce data msg msg' buffer next ih => unfold Game.play; simp only [ih]; rfl
      | decrypt nonce data ct t buffer next ih => unfold Game.play; simp only [ih]; rfl
    exact h1 _ _

end CryptoPure.MultiGame
