import Verif.Spec.Layers
import Verif.Spec.Distinguisher
import Verif.Proofs.Prob
import Verif.Proofs.KeyIdeal
import Mathlib.Data.Fintype.Lattice

/-! # Encrypting twice: attacks on both layers are attacks on each of them -/

namespace CryptoPure.Layers
open Game
open Proofs.KeyIdeal (game_within_mono)

variable {K K' : Type}

/-- What the proofs need from a cipher. -/
structure Strict (S : Scheme K) : Prop where
  lengths : ∀ k msg nonce data b ct t, S.enc k msg nonce data b = some (ct, t) → ct.length = msg.length ∧ t.length = 16
  panics : ∀ k msg msg' nonce data b, msg.length = msg'.length → (S.enc k msg nonce data b = none ↔ S.enc k msg' nonce data b = none)
  same : ∀ k msg nonce data b b' r r', S.enc k msg nonce data b = some r → S.enc k msg nonce data b' = some r' → r = r'
  accept : ∀ k ct nonce data t b out, S.dec k ct nonce data t b = some (out, true) → S.enc k out nonce data b = some (ct, t)

/-! ## One step of the games -/

section
variable (S : Scheme K) (right : Bool) (k : K)

theorem play_enc (nonce data msg msg' buffer : Bytes) (next : Option (Bytes × Bytes) → Adversary) (log : Log) :
    play S right k (.encrypt nonce data msg msg' buffer next) log =
    if nonce ∈ log.map Prod.fst ∨ msg.length ≠ msg'.length then play S right k (next none) log
    else match S.enc k (if right then msg' else msg) nonce data buffer with
      | none => play S right k (next none) log
      | some (ct, t) => play S right k (next (some (ct, t))) ((nonce, data, ct, t) :: log) := by rw [play.eq_def]; rfl

theorem play_dec (nonce data ct t buffer : Bytes) (next : Option (Bytes × Bool) → Adversary) (log : Log) :
    play S right k (.decrypt nonce data ct t buffer next) log =
    if (nonce, data, ct, t) ∈ log then play S right k (next none) log else play S right k (next (S.dec k ct nonce data t buffer)) log := by rw [play.eq_def]

theorem forges_enc (nonce data msg msg' buffer : Bytes) (next : Option (Bytes × Bytes) → Adversary) (log : Log) :
    forges S right k (.encrypt nonce data msg msg' buffer next) log =
    if nonce ∈ log.map Prod.fst ∨ msg.length ≠ msg'.length then forges S right k (next none) log
    else match S.enc k (if right then msg' else msg) nonce data buffer with
      | none => forges S right k (next none) log
      | some (ct, t) => forges S right k (next (some (ct, t))) ((nonce, data, ct, t) :: log) := by rw [forges.eq_def]; rfl

theorem forges_dec (nonce data ct t buffer : Bytes) (next : Option (Bytes × Bool) → Adversary) (log : Log) :
    forges S right k (.decrypt nonce data ct t buffer next) log =
    if (nonce, data, ct, t) ∈ log then forges S right k (next none) log
    else (∃ out, S.dec k ct nonce data t buffer = some (out, true)) ∨ forges S right k (next (S.dec k ct nonce data t buffer)) log := by rw [forges.eq_def]

end

/-! ## The outer layer -/

theorem onOuter_play {S : Scheme K} (hS : Strict S) (S' : Scheme K') (right : Bool) (k : K) (k' : K') (A : Adversary) (log : Log) :
    play (layered S S') right (k, k') A log = play S' right k' (onOuter S k A) log := by
  induction A generalizing log with
  | stop g => rfl
  | encrypt nonce data msg msg' buffer next ih =>
    rw [onOuter.eq_def]
    dsimp only
    by_cases hl : msg.length ≠ msg'.length
    · rw [if_pos hl, play_enc]
      rw [if_pos (.inr hl)]
      exact ih _ _
    · rw [if_neg hl]
      have hl : msg.length = msg'.length := not_not.mp hl
      have hp : S.enc k msg nonce data (zeros msg.length) = none ↔ S.enc k msg' nonce data (zeros msg'.length) = none := by
        rw [← hl]; exact hS.panics k _ _ _ _ _ hl
      rw [play_enc]
      cases h1 : S.enc k msg nonce data (zeros msg.length) with
      | none =>
        have h2 := hp.mp h1
        have : (layered S S').enc (k, k') (if right then msg' else msg) nonce data buffer = none := by
          show (match S.enc k (if right then msg' else msg) nonce data (zeros (if right then msg' else msg).length) with
            | none => none
            | some (ct, t) => S'.enc k' (ct ++ t) nonce data buffer) = none
          cases right
          · simp only [Bool.false_eq_true, if_false, h1]
          · simp only [if_true, h2]
        rw [this]
        dsimp only
        rw [ite_self]
        exact ih _ _
      | some r =>
        obtain ⟨ct, t⟩ := r
        cases h2 : S.enc k msg' nonce data (zeros msg'.length) with
        | none => rw [hp.mpr h2] at h1; cases h1
        | some r' =>
          obtain ⟨ct', t'⟩ := r'
          dsimp only
          rw [play_enc]
          have e : (ct ++ t).length = (ct' ++ t').length := by
            rw [List.length_append, List.length_append, (hS.lengths _ _ _ _ _ _ _ h1).1, (hS.lengths _ _ _ _ _ _ _ h1).2, (hS.lengths _ _ _ _ _ _ _ h2).1,
              (hS.lengths _ _ _ _ _ _ _ h2).2, hl]
          have : (layered S S').enc (k, k') (if right then msg' else msg) nonce data buffer =
              S'.enc k' (if right then ct' ++ t' else ct ++ t) nonce data buffer := by
            show (match S.enc k (if right then msg' else msg) nonce data (zeros (if right then msg' else msg).length) with
              | none => none
              | some (ct, t) => S'.enc k' (ct ++ t) nonce data buffer) = _
            cases right
            · simp only [Bool.false_eq_true, if_false, h1]
            · simp only [if_true, h2]
          rw [this]
          by_cases hn : nonce ∈ log.map Prod.fst
          · rw [if_pos (.inl hn), if_pos (.inl hn)]
            exact ih _ _
          · rw [if_neg (not_or.mpr ⟨hn, not_not.mpr hl⟩), if_neg (not_or.mpr ⟨hn, not_not.mpr e⟩)]
            cases S'.enc k' (if right then ct' ++ t' else ct ++ t) nonce data buffer with
            | none => exact ih _ _
            | some r => exact ih _ _
  | decrypt nonce data ct t buffer next ih =>
    rw [onOuter.eq_def]
    dsimp only
    rw [play_dec, play_dec]
    by_cases hm : (nonce, data, ct, t) ∈ log
    · rw [if_pos hm, if_pos hm]
      exact ih _ _
    · rw [if_neg hm, if_neg hm]
      exact ih _ _

theorem peel_true {S : Scheme K} {k : K} {nonce data buffer out : Bytes} {r : Option (Bytes × Bool)} (h : peel S k nonce data buffer r = some (out, true)) :
    ∃ out', r = some (out', true) := by
  match r with
  | none => cases h
  | some (_, false) => cases h
  | some (out', true) => exact ⟨out', rfl⟩

theorem onOuter_forges {S : Scheme K} (hS : Strict S) (S' : Scheme K') (right : Bool) (k : K) (k' : K') (A : Adversary) (log : Log)
    (h : forges (layered S S') right (k, k') A log) : forges S' right k' (onOuter S k A) log := by
  induction A generalizing log with
  | stop g => exact h
  | encrypt nonce data msg msg' buffer next ih =>
    rw [onOuter.eq_def]
    dsimp only
    by_cases hl : msg.length ≠ msg'.length
    · rw [if_pos hl]
      rw [forges_enc] at h
      rw [if_pos (.inr hl)] at h
      exact ih _ _ h
    · rw [if_neg hl]
      have hl : msg.length = msg'.length := not_not.mp hl
      have hp : S.enc k msg nonce data (zeros msg.length) = none ↔ S.enc k msg' nonce data (zeros msg'.length) = none := by
        rw [← hl]; exact hS.panics k _ _ _ _ _ hl
      rw [forges_enc] at h
      cases h1 : S.enc k msg nonce data (zeros msg.length) with
      | none =>
        have h2 := hp.mp h1
        have : (layered S S').enc (k, k') (if right then msg' else msg) nonce data buffer = none := by
          show (match S.enc k (if right then msg' else msg) nonce data (zeros (if right then msg' else msg).length) with
            | none => none
            | some (ct, t) => S'.enc k' (ct ++ t) nonce data buffer) = none
          cases right
          · simp only [Bool.false_eq_true, if_false, h1]
          · simp only [if_true, h2]
        rw [this] at h
        dsimp only at h
        rw [ite_self] at h
        exact ih _ _ h
      | some r =>
        obtain ⟨ct, t⟩ := r
        cases h2 : S.enc k msg' nonce data (zeros msg'.length) with
        | none => rw [hp.mpr h2] at h1; cases h1
        | some r' =>
          obtain ⟨ct', t'⟩ := r'
          dsimp only
          rw [forges_enc]
          have e : (ct ++ t).length = (ct' ++ t').length := by
            rw [List.length_append, List.length_append, (hS.lengths _ _ _ _ _ _ _ h1).1, (hS.lengths _ _ _ _ _ _ _ h1).2, (hS.lengths _ _ _ _ _ _ _ h2).1,
              (hS.lengths _ _ _ _ _ _ _ h2).2, hl]
          have : (layered S S').enc (k, k') (if right then msg' else msg) nonce data buffer =
              S'.enc k' (if right then ct' ++ t' else ct ++ t) nonce data buffer := by
            show (match S.enc k (if right then msg' else msg) nonce data (zeros (if right then msg' else msg).length) with
              | none => none
              | some (ct, t) => S'.enc k' (ct ++ t) nonce data buffer) = _
            cases right
            · simp only [Bool.false_eq_true, if_false, h1]
            · simp only [if_true, h2]
          rw [this] at h
          by_cases hn : nonce ∈ log.map Prod.fst
          · rw [if_pos (.inl hn)] at h
            rw [if_pos (.inl hn)]
            exact ih _ _ h
          · rw [if_neg (not_or.mpr ⟨hn, not_not.mpr hl⟩)] at h
            rw [if_neg (not_or.mpr ⟨hn, not_not.mpr e⟩)]
            cases hE : S'.enc k' (if right then ct' ++ t' else ct ++ t) nonce data buffer with
            | none => rw [hE] at h; exact ih _ _ h
            | some r => rw [hE] at h; exact ih _ _ h
  | decrypt nonce data ct t buffer next ih =>
    rw [onOuter.eq_def]
    dsimp only
    rw [forges_dec] at h
    rw [forges_dec]
    by_cases hm : (nonce, data, ct, t) ∈ log
    · rw [if_pos hm] at h
      rw [if_pos hm]
      exact ih _ _ h
    · rw [if_neg hm] at h
      rw [if_neg hm]
      rcases h with ⟨out, h⟩ | h
      · exact .inl (peel_true h)
      · exact .inr (ih _ _ h)

/-! ## The inner layer -/

/-- What was sent through both layers, and what the inner one made of it. -/
def Linked (S' : Scheme K') (k' : K') (log inner : Log) : Prop :=
  List.Forall₂ (fun e i => e.1 = i.1 ∧ e.2.1 = i.2.1 ∧ i.2.2.2.length = 16 ∧ ∃ b, S'.enc k' (i.2.2.1 ++ i.2.2.2) e.1 e.2.1 b = some (e.2.2.1, e.2.2.2)) log inner

theorem Linked.nonces {S' : Scheme K'} {k' : K'} {log inner : Log} (h : Linked S' k' log inner) : log.map Prod.fst = inner.map Prod.fst := by
  induction h with
  | nil => rfl
  | cons h _ ih => rw [List.map_cons, List.map_cons, ih, h.1]

theorem Linked.mem {S' : Scheme K'} {k' : K'} {log inner : Log} (h : Linked S' k' log inner) {nonce data c t : Bytes} (hm : (nonce, data, c, t) ∈ inner) :
    ∃ ct' t' b, (nonce, data, ct', t') ∈ log ∧ S'.enc k' (c ++ t) nonce data b = some (ct', t') := by
  induction h with
  | nil => cases hm
  | @cons e i _ _ h _ ih =>
    rcases List.mem_cons.mp hm with hm | hm
    · obtain ⟨h1, h2, -, b, h3⟩ := h
      subst hm
      obtain ⟨n, d, ct', t'⟩ := e
      dsimp only at h1 h2 h3
      subst h1 h2
      exact ⟨ct', t', b, List.mem_cons_self .., h3⟩
    · obtain ⟨ct', t', b, h1, h2⟩ := ih hm
      exact ⟨ct', t', b, List.mem_cons_of_mem _ h1, h2⟩

/-- What is fresh for both layers is fresh for the inner one. -/
theorem Linked.fresh {S' : Scheme K'} (hS : Strict S') {k' : K'} {log inner : Log} (h : Linked S' k' log inner) {nonce data ct t b out : Bytes}
    (hm : (nonce, data, ct, t) ∉ log) (hd : S'.dec k' ct nonce data t b = some (out, true)) :
    (nonce, data, out.take (out.length - 16), out.drop (out.length - 16)) ∉ inner := by
  intro hi
  obtain ⟨ct', t', b', h1, h2⟩ := h.mem hi
  rw [List.take_append_drop] at h2
  have := hS.same _ _ _ _ _ _ _ _ (hS.accept _ _ _ _ _ _ _ hd) h2
  obtain ⟨rfl, rfl⟩ := Prod.mk.inj this
  exact hm h1

section
variable {S : Scheme K} (hS : Strict S) {S' : Scheme K'} (hS' : Strict S')
include hS hS'

/-- The outer layer accepts what the inner one made if it accepts some bytes of that length. -/
theorem outer_some {k : K} {k' : K'} {msg nonce data b ct t buffer : Bytes} (h : S.enc k msg nonce data b = some (ct, t))
    (hz : S'.enc k' (zeros (msg.length + 16)) nonce data buffer ≠ none) : ∃ ct' t', S'.enc k' (ct ++ t) nonce data buffer = some (ct', t') := by
  obtain ⟨l1, l2⟩ := hS.lengths _ _ _ _ _ _ _ h
  have := (hS'.panics k' (ct ++ t) (zeros (msg.length + 16)) nonce data buffer (by rw [List.length_append, zeros, List.length_replicate, l1, l2])).not.mpr hz
  obtain ⟨⟨ct', t'⟩, h⟩ := Option.ne_none_iff_exists'.mp this
  exact ⟨ct', t', h⟩

theorem outer_none {k : K} {k' : K'} {msg msg' nonce data buffer : Bytes} (hl : msg.length = msg'.length)
    (hz : S'.enc k' (zeros (msg.length + 16)) nonce data buffer = none) : (layered S S').enc (k, k') msg' nonce data buffer = none := by
  show (match S.enc k msg' nonce data (zeros msg'.length) with
    | none => none
    | some (ct, t) => S'.enc k' (ct ++ t) nonce data buffer) = none
  cases h : S.enc k msg' nonce data (zeros msg'.length) with
  | none => rfl
  | some r =>
    obtain ⟨ct, t⟩ := r
    obtain ⟨l1, l2⟩ := hS.lengths _ _ _ _ _ _ _ h
    exact (hS'.panics k' (ct ++ t) (zeros (msg.length + 16)) nonce data buffer (by rw [List.length_append, zeros, List.length_replicate, l1, l2, hl])).mpr hz

theorem onInner_both (right : Bool) (k : K) (k' : K') (A : Adversary) (log inner : Log) (hL : Linked S' k' log inner) :
    play (layered S S') right (k, k') A log = play S right k (onInner S' k' A log) inner ∧
    (forges (layered S S') right (k, k') A log → forges S right k (onInner S' k' A log) inner) := by
  induction A generalizing log inner with
  | stop g => exact ⟨rfl, id⟩
  | encrypt nonce data msg msg' buffer next ih =>
    rw [onInner.eq_def]
    dsimp only
    rw [play_enc, forges_enc]
    by_cases hz : S'.enc k' (zeros (msg.length + 16)) nonce data buffer = none
    · rw [if_pos hz]
      by_cases hr : nonce ∈ log.map Prod.fst ∨ msg.length ≠ msg'.length
      · rw [if_pos hr, if_pos hr]
        exact ih _ _ _ hL
      · rw [if_neg hr, if_neg hr, outer_none hS hS' (by push Not at hr; cases right <;> simp [hr.2]) hz]
        exact ih _ _ _ hL
    · rw [if_neg hz, play_enc, forges_enc]
      rw [← hL.nonces]
      by_cases hr : nonce ∈ log.map Prod.fst ∨ msg.length ≠ msg'.length
      · rw [if_pos hr, if_pos hr, if_pos hr, if_pos hr]
        exact ih _ _ _ hL
      · rw [if_neg hr, if_neg hr, if_neg hr, if_neg hr]
        have hl : msg.length = msg'.length := by push Not at hr; exact hr.2
        have hl' : (if right then msg' else msg).length = msg.length := by cases right <;> simp [hl]
        obtain ⟨x, hx⟩ : ∃ x, x = (if right then msg' else msg) := ⟨_, rfl⟩
        rw [← hx] at hl' ⊢
        have e : (layered S S').enc (k, k') x nonce data buffer = match S.enc k x nonce data (zeros msg.length) with
            | none => none
            | some (ct, t) => S'.enc k' (ct ++ t) nonce data buffer := by rw [← hl']; rfl
        rw [e]
        cases h1 : S.enc k x nonce data (zeros msg.length) with
        | none => exact ih _ _ _ hL
        | some r =>
          obtain ⟨ct, t⟩ := r
          obtain ⟨ct', t', h2⟩ := outer_some hS hS' h1 (by rw [hl']; exact hz)
          dsimp only
          rw [h2]
          exact ih _ _ _ (.cons ⟨rfl, rfl, (hS.lengths _ _ _ _ _ _ _ h1).2, buffer, h2⟩ hL)
  | decrypt nonce data ct t buffer next ih =>
    rw [onInner.eq_def]
    dsimp only
    rw [play_dec, forges_dec]
    by_cases hm : (nonce, data, ct, t) ∈ log
    · rw [if_pos hm, if_pos hm, if_pos hm]
      exact ih _ _ _ hL
    · rw [if_neg hm, if_neg hm, if_neg hm]
      have e : (layered S S').dec (k, k') ct nonce data t buffer = peel S k nonce data buffer (S'.dec k' ct nonce data t buffer) := rfl
      rw [e]
      have no : ∀ {P : Prop} {r : Option (Bytes × Bool)}, (∀ out, r ≠ some (out, true)) → ((∃ out, r = some (out, true)) ∨ P ↔ P) := by
        intro P r h
        exact ⟨fun h' => h'.resolve_left fun ⟨out, h''⟩ => h out h'', .inr⟩
      match hd : S'.dec k' ct nonce data t buffer with
      | none =>
        refine ⟨(ih _ _ _ hL).1, fun h => (ih _ _ _ hL).2 ?_⟩
        exact (no (by rintro out ⟨⟩)).mp h
      | some (o, false) =>
        refine ⟨(ih _ _ _ hL).1, fun h => (ih _ _ _ hL).2 ?_⟩
        exact (no (by rintro out ⟨⟩)).mp h
      | some (out, true) =>
        dsimp only [peel]
        by_cases hs : out.length < 16
        · simp only [if_pos hs]
          refine ⟨(ih _ _ _ hL).1, fun h => (ih _ _ _ hL).2 ?_⟩
          exact (no (by rintro out ⟨⟩)).mp h
        · simp only [if_neg hs]
          rw [play_dec, forges_dec]
          rw [if_neg (hL.fresh hS' hm hd), if_neg (hL.fresh hS' hm hd)]
          match hi : S.dec k (out.take (out.length - 16)) nonce data (out.drop (out.length - 16)) (zeros (out.length - 16)) with
          | none =>
            refine ⟨(ih _ _ _ hL).1, fun h => .inr ((ih _ _ _ hL).2 ?_)⟩
            exact (no (by rintro out ⟨⟩)).mp h
          | some (o, false) =>
            refine ⟨(ih _ _ _ hL).1, fun h => .inr ((ih _ _ _ hL).2 ?_)⟩
            exact (no (by rintro out ⟨⟩)).mp h
          | some (o, true) => exact ⟨(ih _ _ _ hL).1, fun _ => .inl ⟨o, rfl⟩⟩

end

/-! ## Limits -/

theorem costs_mono {cost : Nat → Nat} {A : Adversary} {a b : Nat} (h : Distinguisher.Costs cost A a) (hab : a ≤ b) : Distinguisher.Costs cost A b := by
  induction A generalizing a b with
  | stop g => trivial
  | encrypt nonce data msg msg' buffer next ih =>
    obtain ⟨c, rfl, h⟩ := h
    exact ⟨b - cost msg.length, by omega, fun r => ih r (h r) (by omega)⟩
  | decrypt nonce data ct t buffer next ih =>
    obtain ⟨c, rfl, h⟩ := h
    exact ⟨b - cost ct.length, by omega, fun r => ih r (h r) (by omega)⟩

theorem onOuter_within {S : Scheme K} (hS : Strict S) (k : K) {blocks : Nat → Nat → Nat} (hb : ∀ d l l', l ≤ l' → blocks d l ≤ blocks d l') {n : Nat} (A : Adversary) {a : Nat}
    (h : Within (fun d l => blocks d (l + 16)) n A a) : Within blocks n (onOuter S k A) a := by
  induction A generalizing a with
  | stop g => trivial
  | encrypt nonce data msg msg' buffer next ih =>
    rw [onOuter.eq_def]
    dsimp only
    split
    · exact ih _ (h.2 _)
    · split
      · rename_i ct t ct' t' h1 h2
        refine ⟨?_, fun r => ih _ (h.2 _)⟩
        have := hS.lengths _ _ _ _ _ _ _ h1
        rw [List.length_append, this.1, this.2]
        exact h.1
      · exact ih _ (h.2 _)
  | decrypt nonce data ct t buffer next ih =>
    obtain ⟨h1, b, rfl, h2⟩ := h
    exact ⟨(hb _ _ _ (by omega)).trans h1, b, rfl, fun r => ih _ (h2 _)⟩

theorem onOuter_costs {S : Scheme K} (hS : Strict S) (k : K) {cost : Nat → Nat} (hc : ∀ l l', l ≤ l' → cost l ≤ cost l') (A : Adversary) {a : Nat}
    (h : Distinguisher.Costs (fun l => cost (l + 16)) A a) : Distinguisher.Costs cost (onOuter S k A) a := by
  induction A generalizing a with
  | stop g => trivial
  | encrypt nonce data msg msg' buffer next ih =>
    obtain ⟨c, rfl, h⟩ := h
    rw [onOuter.eq_def]
    dsimp only
    split
    · exact costs_mono (ih _ (h _)) (by omega)
    · split
      · rename_i ct t ct' t' h1 h2
        refine ⟨c, ?_, fun r => ih _ (h _)⟩
        have := hS.lengths _ _ _ _ _ _ _ h1
        rw [List.length_append, this.1, this.2]
      · exact costs_mono (ih _ (h _)) (by omega)
  | decrypt nonce data ct t buffer next ih =>
    obtain ⟨c, rfl, h⟩ := h
    have := hc ct.length (ct.length + 16) (by omega)
    dsimp only
    exact ⟨cost (ct.length + 16) + c - cost ct.length, by omega, fun r => costs_mono (ih _ (h _)) (by omega)⟩

theorem onInner_within {S' : Scheme K'} (hS' : Strict S') (k' : K') {blocks : Nat → Nat → Nat} (hb : ∀ d l l', l ≤ l' → blocks d l ≤ blocks d l') {n : Nat} (A : Adversary)
    {a : Nat} (log : Log) (h : Within blocks n A a) : Within blocks n (onInner S' k' A log) a := by
  induction A generalizing a log with
  | stop g => trivial
  | encrypt nonce data msg msg' buffer next ih =>
    rw [onInner.eq_def]
    dsimp only
    split
    · exact ih _ _ (h.2 _)
    · refine ⟨h.1, fun r => ?_⟩
      match r with
      | none => exact ih _ _ (h.2 _)
      | some (ct, t) =>
        dsimp only
        split
        · exact ih _ _ (h.2 _)
        · exact ih _ _ (h.2 _)
  | decrypt nonce data ct t buffer next ih =>
    obtain ⟨h1, b, rfl, h2⟩ := h
    rw [onInner.eq_def]
    dsimp only
    split
    · exact game_within_mono (ih _ _ (h2 _)) (by omega)
    · split
      · exact game_within_mono (ih _ _ (h2 _)) (by omega)
      · exact game_within_mono (ih _ _ (h2 _)) (by omega)
      · rename_i out hd
        split
        · exact game_within_mono (ih _ _ (h2 _)) (by omega)
        · have hl := (hS'.lengths _ _ _ _ _ _ _ (hS'.accept _ _ _ _ _ _ _ hd)).1
          refine ⟨(hb _ _ _ (by rw [List.length_take]; omega)).trans h1, b, rfl, fun r => ?_⟩
          match r with
          | none => exact ih _ _ (h2 _)
          | some (_, false) => exact ih _ _ (h2 _)
          | some (_, true) => exact ih _ _ (h2 _)

theorem onInner_costs {S' : Scheme K'} (hS' : Strict S') (k' : K') {cost : Nat → Nat} (hc : ∀ l l', l ≤ l' → cost l ≤ cost l') (A : Adversary)
    {a : Nat} (log : Log) (h : Distinguisher.Costs cost A a) : Distinguisher.Costs cost (onInner S' k' A log) a := by
  induction A generalizing a log with
  | stop g => trivial
  | encrypt nonce data msg msg' buffer next ih =>
    obtain ⟨c, rfl, h⟩ := h
    rw [onInner.eq_def]
    dsimp only
    split
    · exact costs_mono (ih _ _ (h _)) (by omega)
    · refine ⟨c, rfl, fun r => ?_⟩
      match r with
      | none => exact ih _ _ (h _)
      | some (ct, t) =>
        dsimp only
        split
        · exact ih _ _ (h _)
        · exact ih _ _ (h _)
  | decrypt nonce data ct t buffer next ih =>
    obtain ⟨c, rfl, h⟩ := h
    rw [onInner.eq_def]
    dsimp only
    split
    · exact costs_mono (ih _ _ (h _)) (by omega)
    · split
      · exact costs_mono (ih _ _ (h _)) (by omega)
      · exact costs_mono (ih _ _ (h _)) (by omega)
      · rename_i out hd
        split
        · exact costs_mono (ih _ _ (h _)) (by omega)
        · have hl := (hS'.lengths _ _ _ _ _ _ _ (hS'.accept _ _ _ _ _ _ _ hd)).1
          have := hc (out.take (out.length - 16)).length ct.length (by rw [List.length_take]; omega)
          refine ⟨cost ct.length + c - cost (out.take (out.length - 16)).length, by omega, fun r => ?_⟩
          match r with
          | none => exact costs_mono (ih _ _ (h _)) (by omega)
          | some (_, false) => exact costs_mono (ih _ _ (h _)) (by omega)
          | some (_, true) => exact costs_mono (ih _ _ (h _)) (by omega)

/-! ## Two independent keys -/

theorem exists_key {α β : Type} [Finite α] [Finite β] [Nonempty β] (P Q : α × β → Prop) :
    ∃ b, |prob P - prob Q| ≤ |prob (fun a => P (a, b)) - prob (fun a => Q (a, b))| := by
  have : Fintype β := Fintype.ofFinite β
  obtain ⟨b, hb⟩ := Finite.exists_max fun b => |prob (fun a => P (a, b)) - prob (fun a => Q (a, b))|
  refine ⟨b, ?_⟩
  rw [prob_prod, prob_prod, ← sub_div, ← Finset.sum_sub_distrib, abs_div, abs_of_pos (a := (Fintype.card β : ℚ)) (by exact_mod_cast Fintype.card_pos),
    div_le_iff₀ (by exact_mod_cast Fintype.card_pos)]
  calc _ ≤ ∑ b', |prob (fun a => P (a, b')) - prob (fun a => Q (a, b'))| := Finset.abs_sum_le_sum_abs ..
    _ ≤ ∑ _b' : β, |prob (fun a => P (a, b)) - prob (fun a => Q (a, b))| := Finset.sum_le_sum fun b' _ => hb b'
    _ = _ := by rw [Finset.sum_const, Finset.card_univ, nsmul_eq_mul, mul_comm]

theorem exists_key_le {α β : Type} [Finite α] [Finite β] [Nonempty β] (P : α × β → Prop) : ∃ b, prob P ≤ prob (fun a => P (a, b)) := by
  obtain ⟨b, hb⟩ := Finite.exists_max fun b => prob (fun a => P (a, b))
  exact ⟨b, prob_prod_le P _ hb⟩

theorem swap_prob {α β : Type} (P : α × β → Prop) : prob P = prob (fun x : β × α => P (x.2, x.1)) :=
  (prob_equiv (Equiv.prodComm β α) P).symm

end CryptoPure.Layers
