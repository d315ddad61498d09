import Verif.Spec.MultiEdGame
import Verif.Props.Ed25519Strong
import Verif.Proofs.Resample
import Mathlib.Algebra.Order.Chebyshev

/-! # C128: Ed25519 with many signers -/

namespace CryptoPure.Props.Ed25519
open Spec.Ed25519 Model.EdWith CryptoPure.Ed Prog Game
open EdGame hiding wins winsStrong
open MultiEdGame (simulate single expand commitment giveUp winsStrong)

variable {u N : Nat}

theorem forger_within_mono (f : EdGame.Forger) {q q' s s' : Nat} (h : f.Within N q s) (hq : q ≤ q') (hs : s ≤ s') : f.Within N q' s' := by
  induction f generalizing q q' s s' with
  | stop M sig => exact h
  | hash x next ih =>
    obtain ⟨h1, p, rfl, h2⟩ := h
    exact ⟨h1, q' - 1, by omega, fun y hy => ih y (h2 y hy) (by omega) hs⟩
  | sign M next ih =>
    obtain ⟨h1, p, rfl, h2⟩ := h
    exact ⟨h1, s' - 1, by omega, fun y hy => ih y (h2 y hy) hq (by omega)⟩

theorem signWith_returns (m : Mode) {az r k : Bytes} (haz : az.length = 64) (hr : r.length = 64) (hk : k.length = 64) (M : Bytes) :
    ∃ sig, signWith m az (fun _ => r) (fun _ => k) M = some sig ∧ sig.length = 64 :=
  ⟨_, signWith_spec m haz (fun _ => r) (fun _ => k) (fun _ => hr) (fun _ => hk) M, by simp [encode_length]⟩

theorem commitment_eq (m : Mode) {az r : Bytes} (haz : az.length = 64) (hr : r.length = 64) (M : Bytes) :
    commitment m az r M = encode (smul (leNat r) B) := by
  unfold commitment
  rw [signWith_spec m haz (fun _ => r) (fun _ => zeros 64) (fun _ => hr) (fun _ => by simp) M, Option.getD_some]
  exact List.take_left' (encode_length _)

/-- What the simulated signer answers is what the signer answers. -/
theorem simulated_signature (m : Mode) {az : Bytes} (haz : az.length = 64) (H : Bytes → Bytes) (hH : ∀ x, (H x).length = 64) (M : Bytes) :
    signWith m az (fun M => H (az.drop 32 ++ M)) H M =
      signWith m az (fun _ => H (az.drop 32 ++ M)) (fun _ => H (commitment m az (H (az.drop 32 ++ M)) M ++ (genPkWith m az).getD [] ++ M)) M := by
  rw [commitment_eq m haz (hH _), genPkWith_spec m haz, Option.getD_some, signWith_spec m haz _ H (fun _ => hH _) hH M,
    signWith_spec m haz _ _ (fun _ => hH _) (fun _ => hH _) M]

theorem expand_within (sks : Fin u → Bytes) (hsk : ∀ j, (sks j).length ≤ N) (js : List (Fin u)) (azs : Fin u → Bytes) (next : (Fin u → Bytes) → EdGame.Forger)
    (q s : Nat) (h : ∀ azs' : Fin u → Bytes, (∀ j, j ∈ js ∨ (azs j).length = 64 → (azs' j).length = 64) → (next azs').Within N q s) :
    (expand sks js azs next).Within N (js.length + q) s := by
  induction js generalizing azs with
  | nil =>
    rw [List.length_nil, Nat.zero_add]
    exact h azs fun j hj => hj.resolve_left (by simp)
  | cons j js ih =>
    refine ⟨hsk j, js.length + q, by simp only [List.length_cons]; omega, fun y hy => ih _ fun azs' ha => h azs' fun k hk => ha k ?_⟩
    by_cases e : k = j
    · subst e; exact .inr (by rw [Function.update_self]; exact hy)
    · rw [Function.update_of_ne e]
      rcases hk with hk | hk
      · exact .inl ((List.mem_cons.mp hk).resolve_left e)
      · exact .inr hk

theorem simulate_within (m : Mode) (i : Fin u) (sks azs : Fin u → Bytes) (hsk : ∀ j, (sks j).length = 32) (haz : ∀ j, (azs j).length = 64) (hN : 64 ≤ N) (f : MultiEdGame.Forger u) (q s : Nat)
    (h : f.Within N q s) : (simulate m i sks azs f).Within N (q + 2 * s) s := by
  induction f generalizing q s with
  | stop user M sig =>
    unfold simulate
    split
    · exact h
    · exact hN
  | hash x next ih =>
    obtain ⟨h1, p, rfl, h2⟩ := h
    exact ⟨h1, p + 2 * s, by omega, fun y hy => ih y p s (h2 y hy)⟩
  | sign user M next ih =>
    obtain ⟨h1, p, rfl, h2⟩ := h
    unfold simulate
    split
    · exact ⟨h1, p, rfl, fun y hy => forger_within_mono _ (ih y q p (h2 y hy)) (by omega) le_rfl⟩
    · refine ⟨by rw [List.length_append, List.length_drop, haz]; omega, q + 2 * p + 1, by omega, fun r hr => ?_⟩
      refine ⟨?_, q + 2 * p, rfl, fun k hk => ?_⟩
      · rw [commitment_eq m (haz _) hr, genPkWith_spec m (haz _), Option.getD_some, List.length_append, List.length_append, encode_length, encode_length]
        omega
      · obtain ⟨sig, e, hl⟩ := signWith_returns m (haz user) hr hk M
        beta_reduce
        rw [e, Option.getD_some]
        exact forger_within_mono _ (ih sig q p (h2 sig hl)) le_rfl (by omega)
  | corrupt user next ih =>
    unfold simulate
    split
    · exact hN
    · exact ih _ q s (h _ (hsk user))

/-- The forger against one signer calls the hash function once for each signer, twice for each signature of the others, and where the given forger does; it
asks for as many signatures. -/
theorem C128_single_within (m : Mode) (i : Fin u) (sks : Fin u → Bytes) (hsk : ∀ j, (sks j).length = 32) (f : (Fin u → Bytes) → MultiEdGame.Forger u)
    (hN : 64 ≤ N) (q s : Nat) (hf : ∀ pks, (∀ j, (pks j).length = 32) → (f pks).Within N q s) (pk : Bytes) (hpk : pk.length = 32) :
    (single m i sks f pk).Within N (u + (q + 2 * s)) s := by
  have := expand_within (N := N) sks (fun j => by rw [hsk]; omega) (List.finRange u) (fun _ => [])
    (fun azs => simulate m i sks azs (f fun j => if j = i then pk else (genPkWith m (azs j)).getD [])) (q + 2 * s) s fun azs ha => by
      have haz : ∀ j, (azs j).length = 64 := fun j => ha j (.inl (List.mem_finRange j))
      refine simulate_within m i sks azs hsk haz hN _ q s (hf _ fun j => ?_)
      split
      · exact hpk
      · rw [genPkWith_spec m (haz j), Option.getD_some, encode_length]
  rwa [List.length_finRange] at this

/-! ## The simulation is perfect -/

theorem expand_wins (H : Bytes → Bytes) (signer : Bytes → Option Bytes) (verifier : Bytes → Bytes → Option Bool) (sks : Fin u → Bytes) (js : List (Fin u))
    (azs : Fin u → Bytes) (next : (Fin u → Bytes) → EdGame.Forger) :
    EdGame.winsStrong H signer verifier (expand sks js azs next) [] ↔
      EdGame.winsStrong H signer verifier (next fun j => if j ∈ js then H (sks j) else azs j) [] := by
  induction js generalizing azs with
  | nil => simp [expand]
  | cons j js ih =>
    show EdGame.winsStrong H signer verifier (expand sks js (Function.update azs j (H (sks j))) next) [] ↔ _
    rw [ih]
    have : (fun k => if k ∈ js then H (sks k) else Function.update azs j (H (sks j)) k) = fun k => if k ∈ j :: js then H (sks k) else azs k := by
      funext k
      by_cases hk : k ∈ js
      · rw [if_pos hk, if_pos (List.mem_cons_of_mem _ hk)]
      · rw [if_neg hk]
        by_cases e : k = j
        · subst e
          rw [Function.update_self, if_pos List.mem_cons_self]
        · rw [Function.update_of_ne e, if_neg (by simp [e, hk])]
    rw [this]

/-- The entries of the log for user `i`. -/
def logOf (i : Fin u) (log : List (Fin u × Bytes × Bytes)) : List (Bytes × Bytes) := (log.filter fun e => e.1 = i).map Prod.snd

/-- Only signatures of user `i` count. -/
def only (i : Fin u) (verifier : Fin u → Bytes → Bytes → Option Bool) (j : Fin u) (M sig : Bytes) : Option Bool :=
  if j = i then verifier j M sig else some false

theorem wins_only (H : Bytes → Bytes) (secret : Fin u → Bytes) (signer : Fin u → Bytes → Option Bytes) (verifier : Fin u → Bytes → Bytes → Option Bool)
    (f : MultiEdGame.Forger u) (log : List (Fin u × Bytes × Bytes)) (bad : List (Fin u)) (h : winsStrong H secret signer verifier f log bad) :
    ∃ i, winsStrong H secret signer (only i verifier) f log bad := by
  induction f generalizing log bad with
  | stop user M sig =>
    refine ⟨user, h.1, ?_, h.2.2⟩
    unfold only
    rw [if_pos rfl]
    exact h.2.1
  | hash x next ih => exact ih _ log bad h
  | sign user M next ih =>
    unfold winsStrong at h ⊢
    cases e : signer user M with
    | none => rw [e] at h; exact h.elim
    | some sig => rw [e] at h; exact ih sig _ bad h
  | corrupt user next ih => exact ih _ log _ h

/-- A forger that has the secret key of user `i` does not win against that user. -/
theorem not_wins_bad (H : Bytes → Bytes) (secret : Fin u → Bytes) (signer : Fin u → Bytes → Option Bytes) (verifier : Fin u → Bytes → Bytes → Option Bool)
    (i : Fin u) (f : MultiEdGame.Forger u) (log : List (Fin u × Bytes × Bytes)) (bad : List (Fin u)) (hi : i ∈ bad) :
    ¬ winsStrong H secret signer (only i verifier) f log bad := by
  induction f generalizing log bad with
  | stop user M sig =>
    rintro ⟨h1, h2, -⟩
    unfold only at h2
    by_cases e : user = i
    · exact h1 (e ▸ hi)
    · rw [if_neg e] at h2
      cases h2
  | hash x next ih => exact ih _ log bad hi
  | sign user M next ih =>
    unfold winsStrong
    cases e : signer user M with
    | none => exact id
    | some sig => exact ih sig _ bad hi
  | corrupt user next ih => exact ih _ log _ (List.mem_cons_of_mem _ hi)

theorem simulate_wins (m : Mode) (i : Fin u) (H : Bytes → Bytes) (hH : ∀ x, (H x).length = 64) (sks azs : Fin u → Bytes)
    (haz : ∀ j, j ≠ i → (azs j).length = 64) (secret : Fin u → Bytes) (hsec : ∀ j, j ≠ i → secret j = sks j)
    (signer : Fin u → Bytes → Option Bytes) (verifier : Fin u → Bytes → Bytes → Option Bool)
    (hs : ∀ j, j ≠ i → ∀ M, signer j M = signWith m (azs j) (fun M => H ((azs j).drop 32 ++ M)) H M) (f : MultiEdGame.Forger u)
    (log : List (Fin u × Bytes × Bytes)) (bad : List (Fin u)) (h : winsStrong H secret signer (only i verifier) f log bad) :
    EdGame.winsStrong H (signer i) (verifier i) (simulate m i sks azs f) (logOf i log) := by
  induction f generalizing log bad with
  | stop user M sig =>
    obtain ⟨-, h1, h2⟩ := h
    unfold only at h1
    by_cases e : user = i
    · subst e
      unfold simulate
      rw [if_pos rfl] at h1 ⊢
      refine ⟨h1, fun old ho => h2 old ?_⟩
      unfold logOf at ho
      obtain ⟨⟨j, x⟩, hx, rfl⟩ := List.mem_map.mp ho
      rw [List.mem_filter, decide_eq_true_eq] at hx
      obtain ⟨hx, rfl⟩ := hx
      exact hx
    · rw [if_neg e] at h1
      cases h1
  | hash x next ih => exact ih _ log bad h
  | sign user M next ih =>
    unfold simulate
    unfold winsStrong at h
    by_cases e : user = i
    · subst e
      rw [if_pos rfl]
      unfold EdGame.winsStrong
      cases es : signer user M with
      | none => rw [es] at h; exact h.elim
      | some sig =>
        rw [es] at h
        have := ih sig _ bad h
        unfold logOf at this ⊢
        rw [List.filter_cons_of_pos (by simp)] at this
        exact this
    · rw [if_neg e]
      unfold EdGame.winsStrong EdGame.winsStrong
      beta_reduce
      rw [← simulated_signature m (haz user e) H hH M, ← hs user e M]
      cases es : signer user M with
      | none => rw [es] at h; exact h.elim
      | some sig =>
        rw [es] at h
        have := ih sig _ bad h
        unfold logOf at this ⊢
        rw [List.filter_cons_of_neg (by simpa using e)] at this
        rw [Option.getD_some]
        exact this
  | corrupt user next ih =>
    unfold simulate
    unfold winsStrong at h
    by_cases e : user = i
    · exact (not_wins_bad H secret signer verifier i _ log _ (e ▸ List.mem_cons_self) h).elim
    · rw [if_neg e, ← hsec user e]
      exact ih _ log _ h

/-! ## One signer -/

abbrev Secret := {sk : Bytes // sk.length = 32}

/-- The event that the forger `f` wins against `u` signers with these secret keys, when the hash function is `H`. -/
def winsAgainst (m : Mode) (f : (Fin u → Bytes) → MultiEdGame.Forger u) (sks : Fin u → Secret) (H : Bytes → Bytes) : Prop :=
  ∃ pks : Fin u → Bytes, (∀ j, genPkH m H (sks j).1 = some (pks j)) ∧
    winsStrong H (fun j => (sks j).1) (fun j => signH m H (sks j).1) (fun j M sig => verifyWith m H M sig (pks j)) (f pks) [] []

theorem single_wins (m : Mode) (i : Fin u) (f : (Fin u → Bytes) → MultiEdGame.Forger u) (sks : Fin u → Secret) (sk : Secret) (H : Bytes → Bytes)
    (hH : ∀ x, (H x).length = 64) (pks : Fin u → Bytes) (hpk : ∀ j, genPkH m H (Function.update sks i sk j).1 = some (pks j))
    (h : winsStrong H (fun j => (Function.update sks i sk j).1) (fun j => signH m H (Function.update sks i sk j).1)
      (only i fun j M sig => verifyWith m H M sig (pks j)) (f pks) [] []) :
    ∃ pk, genPkH m H sk.1 = some pk ∧
      EdGame.winsStrong H (signH m H sk.1) (fun M sig => verifyWith m H M sig pk) (single m i (fun j => (sks j).1) f pk) [] := by
  have e1 : genPkH m H sk.1 = some (pks i) := by have := hpk i; rwa [Function.update_self] at this
  refine ⟨pks i, e1, ?_⟩
  unfold single
  rw [expand_wins]
  simp only [List.mem_finRange, if_true]
  have e2 : (fun j => if j = i then pks i else (genPkWith m (H (sks j).1)).getD []) = pks := by
    funext j
    by_cases e : j = i
    · rw [if_pos e, e]
    · rw [if_neg e]
      have := hpk j
      rw [Function.update_of_ne e] at this
      unfold genPkH at this
      rw [this, Option.getD_some]
  rw [e2]
  have := simulate_wins m i H hH (fun j => (sks j).1) (fun j => H (sks j).1) (fun j _ => hH _)
    (fun j => (Function.update sks i sk j).1) (fun j e => by rw [Function.update_of_ne e]) (fun j => signH m H (Function.update sks i sk j).1)
    (fun j M sig => verifyWith m H M sig (pks j)) (fun j e M => by simp only [Function.update_of_ne e]; rfl) (f pks) [] [] h
  rw [Function.update_self] at this
  exact this

noncomputable instance : Fintype Secret := Fintype.ofFinite _

/-- The chance of the extractor when the user and the other users' secret keys are drawn at random: it makes a random public key for that
user and looks for its logarithm with the help of the forger. -/
noncomputable def averageLog (m : Mode) (f : (Fin u → Bytes) → MultiEdGame.Forger u) : ℚ :=
  (∑ i : Fin u, ∑ sks : Fin u → Secret,
    (logGame m (single m i (fun j => (sks j).1) f)).pr fun r => ∃ z, r.2 = some z ∧ smul z B = r.1) / (u * Fintype.card (Fin u → Secret))

/-- **Forging under one of `u` keys.** SHA-512 is replaced by a uniformly random function `H` and the `u` secret keys are uniformly random and
independent. Take any forger that sees the public keys, calls `H` at most `q` times and the signers at most `s` times altogether, and gets the secret
keys of the users of its choice. Let `ε` be the probability that it ends with a signature that `verify` accepts under one of the keys of the other users, and that is none of the signatures of that
user for that message (not even up to multiples of `L`). Let `p` be the chance of the extractor. Then `(ε / u - δ)² ≤ Q (p + 2^-252)`
with `Q = u + q + 2 s` and `δ = ((s + 1) (Q + s + 1) + 1) 2^-252`, unless `ε / u < δ`. -/
theorem C128_many_signers (m : Mode) (N : Nat) (hN : 64 ≤ N) (hu : 0 < u) (f : (Fin u → Bytes) → MultiEdGame.Forger u) (q s : Nat)
    (hf : ∀ pks, (∀ j, (pks j).length = 32) → (f pks).Within N q s) (ε p δ : ℚ) (Q : Nat)
    (hε : ε = prob fun X : (Fin u → Secret) × Keyed N 64 => winsAgainst m f X.1 X.2.ask)
    (hp : p = averageLog m f) (hQ : Q = u + (q + 2 * s))
    (hδ : δ = ((s + 1) * (Q + s + 1) + 1) / 2 ^ 252) (hge : δ ≤ ε / u) : (ε / u - δ) ^ 2 ≤ Q * (p + 1 / 2 ^ 252) := by
  have : Nonempty Secret := ⟨⟨zeros 32, by simp⟩⟩
  obtain ⟨c, hcd⟩ : ∃ c : ℚ, c = (Fintype.card (Fin u → Secret) : ℚ) := ⟨_, rfl⟩
  have hc : 0 < c := by rw [hcd]; exact Nat.cast_pos.mpr Fintype.card_pos
  have hu' : (0 : ℚ) < u := by exact_mod_cast hu
  let E : Fin u → (Fin u → Secret) → ℚ := fun i sks => prob fun X : Secret × Keyed N 64 => ∃ pk, genPkH m X.2.ask X.1.1 = some pk ∧
    EdGame.winsStrong X.2.ask (signH m X.2.ask X.1.1) (fun M sig => verifyWith m X.2.ask M sig pk) (single m i (fun j => (sks j).1) f pk) []
  let G : Fin u → (Fin u → Secret) → ℚ := fun i sks =>
    (logGame m (single m i (fun j => (sks j).1) f)).pr fun r => ∃ z, r.2 = some z ∧ smul z B = r.1
  have hG : ∀ i sks, 0 ≤ G i sks := fun i sks => ex_nonneg fun r => by split <;> simp
  -- one user, fixed keys of the others
  have h1 : ∀ i sks, (max (E i sks - δ) 0) ^ 2 ≤ Q * (G i sks + 1 / 2 ^ 252) := by
    intro i sks
    by_cases h : δ ≤ E i sks
    · rw [max_eq_left (by linarith)]
      refine oracle_strong m N (by omega) (single m i (fun j => (sks j).1) f) Q s (fun pk hpk => ?_) (E i sks) (G i sks) δ rfl rfl hδ h
      rw [hQ]
      exact C128_single_within m i _ (fun j => (sks j).2) f hN q s hf pk hpk
    · rw [max_eq_right (by linarith)]
      have h0 : (0 : ℚ) ≤ 1 / 2 ^ 252 := one_div_nonneg.mpr (pow_nonneg zero_le_two _)
      rw [zero_pow two_ne_zero]
      exact mul_nonneg (Nat.cast_nonneg _) (add_nonneg (hG i sks) h0)
  -- the forger names one of the users
  have h2 : ε ≤ ∑ i, (∑ sks, E i sks) / c := by
    have h3 : ∀ i, prob (fun X : (Fin u → Secret) × Keyed N 64 => ∃ pks : Fin u → Bytes, (∀ j, genPkH m X.2.ask (X.1 j).1 = some (pks j)) ∧
        winsStrong X.2.ask (fun j => (X.1 j).1) (fun j => signH m X.2.ask (X.1 j).1)
          (only i fun j M sig => verifyWith m X.2.ask M sig (pks j)) (f pks) [] []) ≤
        (∑ sks, E i sks) / c := by
      intro i
      rw [prob_update i, prob_prod, ← hcd, div_le_div_iff_of_pos_right hc]
      refine Finset.sum_le_sum fun sks _ => prob_mono ?_
      rintro ⟨sk, H⟩ ⟨pks, h, hw⟩
      exact single_wins m i f sks sk H.ask (ask_length H) pks h hw
    refine le_trans ?_ (Finset.sum_le_sum fun i _ => h3 i)
    rw [hε]
    refine le_trans (prob_mono fun X ⟨pks, h, hw⟩ => ?_) (prob_exists _)
    obtain ⟨i, hi⟩ := wins_only _ _ _ _ _ _ _ hw
    exact ⟨i, pks, h, hi⟩
  -- convexity
  have h4 : ε / u - δ ≤ (∑ x : Fin u × (Fin u → Secret), max (E x.1 x.2 - δ) 0) / (u * c) := by
    have e1 : (∑ x : Fin u × (Fin u → Secret), (E x.1 x.2 - δ)) = (∑ i, (∑ sks, E i sks)) - u * c * δ := by
      rw [Finset.sum_sub_distrib, Finset.sum_const, Finset.card_univ, Fintype.card_prod, Fintype.card_fin, Fintype.sum_prod_type]
      rw [nsmul_eq_mul, Nat.cast_mul, ← hcd]
    have e2 : (∑ x : Fin u × (Fin u → Secret), (E x.1 x.2 - δ)) ≤ ∑ x : Fin u × (Fin u → Secret), max (E x.1 x.2 - δ) 0 :=
      Finset.sum_le_sum fun x _ => le_max_left _ _
    rw [← Finset.sum_div] at h2
    rw [le_div_iff₀ (by positivity)]
    rw [le_div_iff₀ hc] at h2
    have e3 : (ε / u - δ) * (u * c) = ε * c - u * c * δ := by field_simp
    rw [e3]
    linarith
  have h5 : (∑ x : Fin u × (Fin u → Secret), max (E x.1 x.2 - δ) 0) ^ 2 ≤
      (u * c) * ∑ x : Fin u × (Fin u → Secret), (max (E x.1 x.2 - δ) 0) ^ 2 := by
    have := sq_sum_le_card_mul_sum_sq (s := (Finset.univ : Finset (Fin u × (Fin u → Secret)))) (f := fun x => max (E x.1 x.2 - δ) 0)
    rw [Finset.card_univ, Fintype.card_prod, Fintype.card_fin] at this
    rw [Nat.cast_mul, ← hcd] at this
    exact this
  have h6 : (∑ x : Fin u × (Fin u → Secret), (max (E x.1 x.2 - δ) 0) ^ 2) ≤ (u * c) * (Q * (p + 1 / 2 ^ 252)) := by
    refine le_trans (Finset.sum_le_sum fun x _ => h1 x.1 x.2) (le_of_eq ?_)
    rw [← Finset.mul_sum, Finset.sum_add_distrib, Finset.sum_const, Finset.card_univ, Fintype.card_prod, Fintype.card_fin, Fintype.sum_prod_type]
    have hpp : ∑ i, ∑ sks, G i sks = u * c * p := by
      have hne : (u : ℚ) * c ≠ 0 := (mul_pos hu' hc).ne'
      rw [hp]
      unfold averageLog
      rw [← hcd]
      exact (mul_div_cancel₀ _ hne).symm
    rw [hpp, nsmul_eq_mul, Nat.cast_mul, ← hcd]
    ring
  have hpos : 0 < (u : ℚ) * c := by positivity
  calc (ε / u - δ) ^ 2 ≤ ((∑ x : Fin u × (Fin u → Secret), max (E x.1 x.2 - δ) 0) / (u * c)) ^ 2 := pow_le_pow_left₀ (by linarith) h4 2
    _ = (∑ x : Fin u × (Fin u → Secret), max (E x.1 x.2 - δ) 0) ^ 2 / (u * c) ^ 2 := by rw [div_pow]
    _ ≤ ((u * c) * ((u * c) * (Q * (p + 1 / 2 ^ 252)))) / (u * c) ^ 2 := by
      rw [div_le_div_iff_of_pos_right (by positivity)]
      exact h5.trans (mul_le_mul_of_nonneg_left h6 hpos.le)
    _ = Q * (p + 1 / 2 ^ 252) := by field_simp

theorem winsStrong_of_wins_many {H : Bytes → Bytes} {secret : Fin u → Bytes} {signer : Fin u → Bytes → Option Bytes}
    {verifier : Fin u → Bytes → Bytes → Option Bool} (f : MultiEdGame.Forger u) (log : List (Fin u × Bytes × Bytes)) (bad : List (Fin u))
    (h : MultiEdGame.wins H secret signer verifier f (log.map fun e => (e.1, e.2.1)) bad) : winsStrong H secret signer verifier f log bad := by
  induction f generalizing log bad with
  | stop user M sig => exact ⟨h.1, h.2.2, fun old ho => (h.2.1 (List.mem_map.mpr ⟨_, ho, rfl⟩)).elim⟩
  | hash x next ih => exact ih _ log bad h
  | sign user M next ih =>
    unfold winsStrong
    unfold MultiEdGame.wins at h
    cases e : signer user M with
    | none => rw [e] at h; exact h.elim
    | some sig => rw [e] at h; exact ih sig _ bad h
  | corrupt user next ih => exact ih _ log _ h

/-- The same for a forger that wins when it ends with a message that the user it names did not sign. -/
theorem C128_new_message (m : Mode) (N : Nat) (hN : 64 ≤ N) (hu : 0 < u) (f : (Fin u → Bytes) → MultiEdGame.Forger u) (q s : Nat)
    (hf : ∀ pks, (∀ j, (pks j).length = 32) → (f pks).Within N q s) (ε p δ : ℚ) (Q : Nat)
    (hε : ε = prob fun X : (Fin u → Secret) × Keyed N 64 => ∃ pks : Fin u → Bytes, (∀ j, genPkH m X.2.ask (X.1 j).1 = some (pks j)) ∧
      MultiEdGame.wins X.2.ask (fun j => (X.1 j).1) (fun j => signH m X.2.ask (X.1 j).1) (fun j M sig => verifyWith m X.2.ask M sig (pks j)) (f pks) [] [])
    (hp : p = averageLog m f) (hQ : Q = u + (q + 2 * s))
    (hδ : δ = ((s + 1) * (Q + s + 1) + 1) / 2 ^ 252) (hge : δ ≤ ε / u) : (ε / u - δ) ^ 2 ≤ Q * (p + 1 / 2 ^ 252) := by
  have h1 : ε ≤ prob fun X : (Fin u → Secret) × Keyed N 64 => winsAgainst m f X.1 X.2.ask := by
    rw [hε]
    exact prob_mono fun X ⟨pks, h, hw⟩ => ⟨pks, h, winsStrong_of_wins_many (f pks) [] [] hw⟩
  have h2 := div_le_div_of_nonneg_right h1 (Nat.cast_nonneg u : (0 : ℚ) ≤ u)
  exact le_trans (pow_le_pow_left₀ (by linarith) (by linarith) 2) (C128_many_signers m N hN hu f q s hf _ p δ Q rfl hp hQ hδ (hge.trans h2))

/-! ## Concrete cases -/

/-- A forger against two signers: it asks the first for a signature of a message and presents it as one of the second. -/
def borrower : (Fin 2 → Bytes) → MultiEdGame.Forger 2 := fun pks => .sign 0 [1] fun sig => .hash (sig.take 32 ++ pks 1 ++ [1]) fun _ => .stop 1 [1] sig

example : ∀ pks : Fin 2 → Bytes, (∀ j, (pks j).length = 32) → (borrower pks).Within 65 1 1 :=
  fun pks hpk => ⟨by decide, 0, rfl, fun y hy => ⟨by simp [hy, hpk], 0, rfl, fun y _ => by simp [MultiEdGame.Forger.Within]⟩⟩

/-- It wins when both signers happen to have the same secret key, so `ε` is positive. -/
example (m : Mode) (sk : Secret) (H : Keyed 65 64) : winsAgainst m borrower (fun _ => sk) H.ask := by
  obtain ⟨sig, e1, -⟩ := signWith_some (m := m) (az := H.ask sk.1) (ask_length _ _) (Hn := fun M => H.ask ((H.ask sk.1).drop 32 ++ M)) (Hc := H.ask)
    (fun _ => ask_length _ _) (ask_length _) [1]
  refine ⟨fun _ => encode (smul (scalarOf (H.ask sk.1)) B), fun _ => genPkWith_spec m (ask_length _ _), ?_⟩
  unfold borrower
  rw [winsStrong, show signH m H.ask sk.1 [1] = some sig from e1]
  simp only [winsStrong]
  refine ⟨by simp, ?_, fun old ho => ?_⟩
  · have h1 := sign_accepts m (ask_length H sk.1) _ _ (fun _ => ask_length _ _) (ask_length _) e1
    unfold accepts at h1
    rw [← h1]
    exact verifyWith_congr m _ _ [1] _ _ rfl
  · simp at ho

/-- A forger that takes the secret key of the first signer, asks the second for a signature, and presents another one for the same message, which it could
make with the help of that secret key. -/
def takeover (g : Bytes → Bytes → Bytes) : (Fin 2 → Bytes) → MultiEdGame.Forger 2 := fun _ => .corrupt 0 fun sk => .sign 1 [1] fun sig => .stop 1 [1] (g sk sig)

example (m : Mode) (g : Bytes → Bytes → Bytes) (ε p δ : ℚ) (hε : ε = prob fun X : (Fin 2 → Secret) × Keyed 65 64 => winsAgainst m (takeover g) X.1 X.2.ask)
    (hp : p = averageLog m (takeover g)) (hδ : δ = ((1 + 1) * (4 + 1 + 1) + 1) / 2 ^ 252) (hge : δ ≤ ε / 2) : (ε / 2 - δ) ^ 2 ≤ 4 * (p + 1 / 2 ^ 252) := by
  have := C128_many_signers m 65 (by norm_num) (by norm_num) (takeover g) 0 1
    (fun pks _ y _ => ⟨by decide, 0, rfl, fun y _ => by show _ ≤ 65; decide⟩) ε p δ 4 hε hp rfl (by simpa using hδ) (by simpa using hge)
  simpa using this

end CryptoPure.Props.Ed25519
