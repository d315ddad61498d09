import Verif.Props.HmacPrf
import Verif.Spec.MultiMacGame
import Verif.Proofs.Resample

/-! # C130: HMAC with many keys -/

namespace CryptoPure.Props.HmacMulti
open CryptoPure.Model MultiMacGame
open Game hiding play forges
open CryptoPure.Props HmacTests

variable {u w : Nat}

theorem uses_mono {R : Type} (X : MacGame.Attacker w R) {q q' t t' : Nat} (h : X.Uses q t) (hq : q ≤ q') (ht : t ≤ t') : X.Uses q' t' := by
  induction X generalizing q q' t t' with
  | stop r => trivial
  | compress H b next ih => exact fun y => ih y (h y) hq ht
  | tag M next ih =>
    obtain ⟨p, rfl, h⟩ := h
    exact ⟨q' - 1, by omega, fun y => ih y (h y) (by omega) ht⟩
  | verify M t next ih =>
    obtain ⟨p, rfl, s, rfl, h⟩ := h
    exact ⟨q' - 1, by omega, t' - 1, by omega, fun y => ih y (h y) (by omega) (by omega)⟩

theorem alone_uses (W : Fin u → MacGame.World w) (i : Fin u) (N : Nat) (X : Attacker u w) (q t : Nat) (h : X.Within N q t) : (alone W i X).Uses q t := by
  induction X generalizing q t with
  | stop => trivial
  | compress H b next ih => exact fun y => ih y q t (h y)
  | tag user M next ih =>
    obtain ⟨-, p, rfl, h⟩ := h
    unfold alone
    split
    · exact ⟨p, rfl, fun y => ih y p t (h y)⟩
    · split
      · trivial
      · exact uses_mono _ (ih _ p t (h _)) (by omega) le_rfl
  | verify user M tag next ih =>
    obtain ⟨-, p, rfl, s, rfl, h⟩ := h
    unfold alone
    split
    · exact ⟨p, rfl, s, rfl, fun y => ih y p s (h y)⟩
    · split
      · trivial
      · exact uses_mono _ (ih _ p s (h _)) (by omega) (by omega)

theorem alone_short (W : Fin u → MacGame.World w) (i : Fin u) (N : Nat) (X : Attacker u w) (q t : Nat) (h : X.Within N q t) : (alone W i X).Short N := by
  induction X generalizing q t with
  | stop => trivial
  | compress H b next ih => exact fun y => ih y q t (h y)
  | tag user M next ih =>
    obtain ⟨h0, p, rfl, h⟩ := h
    unfold alone
    split
    · exact ⟨h0, fun y => ih y p t (h y)⟩
    · split
      · trivial
      · exact ih _ p t (h _)
  | verify user M tag next ih =>
    obtain ⟨h0, p, rfl, s, rfl, h⟩ := h
    unfold alone
    split
    · exact ⟨h0, fun y => ih y p s (h y)⟩
    · split
      · trivial
      · exact ih _ p s (h _)

/-- The attacker against one user does not use the key of that user. -/
theorem alone_congr (W W' : Fin u → MacGame.World w) (i : Fin u) (h : ∀ j, j ≠ i → W j = W' j) (X : Attacker u w) : alone W i X = alone W' i X := by
  induction X with
  | stop => rfl
  | compress H b next ih =>
    unfold alone
    rw [funext ih]
  | tag user M next ih =>
    unfold alone
    split
    · rw [funext ih]
    · next e =>
      rw [h user e]
      cases (W' user).tag M with
      | none => rfl
      | some t => exact ih t
  | verify user M tag next ih =>
    unfold alone
    split
    · rw [funext ih]
    · next e =>
      rw [h user e]
      cases (W' user).verify M tag with
      | none => rfl
      | some t => exact ih t

/-- Who is fooled is fooled also when the attacker answers for the others. -/
theorem forges_alone (f : Oct w → Bytes → Oct w) (W : Fin u → MacGame.World w) (hf : ∀ i, (W i).compress = f) (X : Attacker u w) (log : List (Fin u × Bytes))
    (h : forges f W X log) : ∃ i, MacGame.forges (W i) (alone W i X) ((log.filter fun e => e.1 = i).map Prod.snd) := by
  induction X generalizing log with
  | stop => exact h.elim
  | compress H b next ih =>
    obtain ⟨i, hi⟩ := ih _ log h
    refine ⟨i, ?_⟩
    unfold alone MacGame.forges
    rw [hf]
    exact hi
  | tag user M next ih =>
    unfold forges at h
    cases e : (W user).tag M with
    | none => rw [e] at h; exact h.elim
    | some t =>
      rw [e] at h
      obtain ⟨i, hi⟩ := ih t _ h
      refine ⟨i, ?_⟩
      unfold alone
      by_cases ei : user = i
      · subst ei
        rw [if_pos rfl]
        unfold MacGame.forges
        rw [e]
        rw [List.filter_cons_of_pos (by simp)] at hi
        exact hi
      · rw [if_neg ei, e]
        rw [List.filter_cons_of_neg (by simpa using ei)] at hi
        exact hi
  | verify user M tag next ih =>
    unfold forges at h
    rcases h with ⟨h1, h2⟩ | h
    · refine ⟨user, ?_⟩
      unfold alone
      rw [if_pos rfl]
      unfold MacGame.forges
      refine .inl ⟨fun hm => h1 ?_, h2⟩
      obtain ⟨⟨j, x⟩, hx, rfl⟩ := List.mem_map.mp hm
      rw [List.mem_filter, decide_eq_true_eq] at hx
      obtain ⟨hx, rfl⟩ := hx
      exact hx
    · cases e : (W user).verify M tag with
      | none => rw [e] at h; exact h.elim
      | some b =>
        rw [e] at h
        obtain ⟨i, hi⟩ := ih b _ h
        refine ⟨i, ?_⟩
        unfold alone
        by_cases ei : user = i
        · subst ei
          rw [if_pos rfl]
          unfold MacGame.forges
          rw [e]
          exact .inr hi
        · rw [if_neg ei, e]
          exact hi

/-- A key of `kl` bytes. -/
abbrev Key (kl : Nat) := {k : Bytes // k.length = kl}

/-- HMAC of the crate, for the users with these keys. -/
def crateWorlds (v : Variant) (m : Mode) {kl : Nat} (keys : Fin u → Key kl) (i : Fin u) : MacGame.World v.width := crateWorld v m (keys i).1

/-- The attacker against user `i`, that answers for the others with these keys, and reports the forgery. -/
def against (v : Variant) (m : Mode) {kl : Nat} (X : Attacker u v.width) (i : Fin u) (keys : Fin u → Key kl) : MacGame.Attacker v.width Bool :=
  MacGame.forger (alone (crateWorlds v m keys) i X) []

noncomputable instance (kl : Nat) : Fintype (Key kl) := Fintype.ofFinite _

/-- The sum over the users of the average advantage of the two tests of C122, for the attackers against this user that answer for the others with
random keys. -/
noncomputable def totalAdvantage (v : Variant) (m : Mode) (kl : Nat) (X : Attacker u v.width) : ℚ :=
  ∑ i : Fin u, (∑ keys : Fin u → Key kl, (keyAdvantage v kl (against v m X i keys) + outerAdvantage v (against v m X i keys))) / Fintype.card (Fin u → Key kl)

/-- **HMAC of the crate with many keys cannot be forged if the compression function is pseudorandom.** -/
theorem C130_unforgeable (v : Variant) (m : Mode) (kl N : Nat) (hk : kl ≤ v.block) (hN : v.block + N < 2 ^ 61) (X : Attacker u v.width) (q t : Nat)
    (hX : X.Within N q t) (δ : ℚ) (hδ0 : 0 ≤ δ)
    (hδ : ∀ M M' : Bytes, M.length ≤ N → M'.length ≤ N → M ≠ M' → innerCollision v M M' ≤ δ) :
    prob (fun keys : Fin u → Key kl => forges v.fipsCompress (fun i => crateWorld v m (keys i).1) X []) ≤
      u * (t / 256 ^ v.size + q * (q - 1) / 2 * δ) + totalAdvantage v m kl X := by
  have hne : Nonempty (Key kl) := ⟨⟨zeros kl, by simp⟩⟩
  obtain ⟨c, hc⟩ : ∃ c : ℚ, c = (Fintype.card (Fin u → Key kl) : ℚ) := ⟨_, rfl⟩
  have hc0 : 0 < c := by rw [hc]; exact Nat.cast_pos.mpr Fintype.card_pos
  have h1 : ∀ i : Fin u, prob (fun keys : Fin u → Key kl => MacGame.forges (crateWorld v m (keys i).1) (alone (crateWorlds v m keys) i X) []) ≤
      (t / 256 ^ v.size + q * (q - 1) / 2 * δ) +
      (∑ keys : Fin u → Key kl, (keyAdvantage v kl (against v m X i keys) + outerAdvantage v (against v m X i keys))) / Fintype.card (Fin u → Key kl) := by
    intro i
    rw [prob_resample i, prob_prod, ← hc, div_le_iff₀ hc0, add_mul, div_mul_cancel₀ _ hc0.ne']
    have h2 : ∀ keys : Fin u → Key kl, prob (fun k : Key kl => MacGame.forges (crateWorld v m (Function.update keys i k i).1)
        (alone (crateWorlds v m (Function.update keys i k)) i X) []) ≤
        (t / 256 ^ v.size + q * (q - 1) / 2 * δ) + (keyAdvantage v kl (against v m X i keys) + outerAdvantage v (against v m X i keys)) := by
      intro keys
      have h3 := C122_unforgeable v m kl N hk hN (alone (crateWorlds v m keys) i X) q t (alone_short _ i N X q t hX) (alone_uses _ i N X q t hX) δ hδ0 hδ
      refine le_trans (prob_mono fun k hk => ?_) (h3.trans (le_of_eq ?_))
      · rw [Function.update_self, alone_congr (crateWorlds v m (Function.update keys i k)) (crateWorlds v m keys) i (fun j hj => by
          unfold crateWorlds
          rw [Function.update_of_ne hj])] at hk
        exact hk
      · unfold against
        ring
    refine (Finset.sum_le_sum fun keys _ => h2 keys).trans (le_of_eq ?_)
    rw [Finset.sum_add_distrib, Finset.sum_const, Finset.card_univ, nsmul_eq_mul, ← hc]
    ring
  have h4 : prob (fun keys : Fin u → Key kl => forges v.fipsCompress (fun i => crateWorld v m (keys i).1) X []) ≤
      ∑ i : Fin u, prob (fun keys : Fin u → Key kl => MacGame.forges (crateWorld v m (keys i).1) (alone (crateWorlds v m keys) i X) []) :=
    le_trans (prob_mono fun keys h => forges_alone _ (crateWorlds v m keys) (fun _ => rfl) X [] h) (prob_exists _)
  refine h4.trans ((Finset.sum_le_sum fun i _ => h1 i).trans (le_of_eq ?_))
  rw [Finset.sum_add_distrib, Finset.sum_const, Finset.card_univ, Fintype.card_fin, nsmul_eq_mul]
  rfl

/-- The tests ask two and at most `q` questions. -/
theorem C130_asks (v : Variant) (m : Mode) {kl : Nat} (N : Nat) (X : Attacker u v.width) (q t : Nat) (hX : X.Within N q t) (i : Fin u) (keys : Fin u → Key kl) :
    (keyTest v.alg v.fipsCompress v.size (against v m X i keys)).Asks 2 ∧ ∀ Ki, (outerTest v.alg v.fipsCompress v.size Ki (against v m X i keys)).Asks q :=
  C122_asks v _ q t (forger_uses _ q t (alone_uses _ i N X q t hX) [])

/-- If none of these tests has an advantage of more than `η` then no attacker forges with more than `u (t / 256 ^ size + q (q - 1) / 2 δ + 2 η)`. -/
theorem C130_bound (v : Variant) (m : Mode) (kl N : Nat) (hk : kl ≤ v.block) (hN : v.block + N < 2 ^ 61) (X : Attacker u v.width) (q t : Nat)
    (hX : X.Within N q t) (δ : ℚ) (hδ0 : 0 ≤ δ)
    (hδ : ∀ M M' : Bytes, M.length ≤ N → M'.length ≤ N → M ≠ M' → innerCollision v M M' ≤ δ) (η : ℚ)
    (hη : ∀ i (keys : Fin u → Key kl), keyAdvantage v kl (against v m X i keys) ≤ η ∧ outerAdvantage v (against v m X i keys) ≤ η) :
    prob (fun keys : Fin u → Key kl => forges v.fipsCompress (fun i => crateWorld v m (keys i).1) X []) ≤
      u * (t / 256 ^ v.size + q * (q - 1) / 2 * δ + 2 * η) := by
  have hne : Nonempty (Key kl) := ⟨⟨zeros kl, by simp⟩⟩
  refine (C130_unforgeable v m kl N hk hN X q t hX δ hδ0 hδ).trans ?_
  have h : totalAdvantage v m kl X ≤ u * (2 * η) := by
    unfold totalAdvantage
    refine (Finset.sum_le_sum (g := fun _ => 2 * η) fun i _ => ?_).trans (le_of_eq ?_)
    · have hc0 : (0 : ℚ) < Fintype.card (Fin u → Key kl) := Nat.cast_pos.mpr Fintype.card_pos
      rw [div_le_iff₀ hc0]
      refine (Finset.sum_le_sum (g := fun _ => 2 * η) fun keys _ => ?_).trans (le_of_eq ?_)
      · have := hη i keys
        linarith [this.1, this.2]
      · rw [Finset.sum_const, Finset.card_univ, nsmul_eq_mul, mul_comm]
    · rw [Finset.sum_const, Finset.card_univ, Fintype.card_fin, nsmul_eq_mul]
  have e : (u : ℚ) * (t / 256 ^ v.size + q * (q - 1) / 2 * δ + 2 * η) = u * (t / 256 ^ v.size + q * (q - 1) / 2 * δ) + u * (2 * η) := by ring
  rw [e]
  linarith

/-! ## Concrete cases -/

/-- An attacker that asks the first user for a tag and presents it to the second. -/
def replay (v : Variant) : Attacker 2 v.width := .tag 0 [1] fun t => .verify 1 [1] t fun _ => .stop

example (v : Variant) : (replay v).Within 1 2 1 := ⟨by decide, 1, rfl, fun _ => ⟨by decide, 0, rfl, 0, rfl, fun _ => trivial⟩⟩

/-- It succeeds if the two users happen to have the same key. -/
example (v : Variant) (m : Mode) (k : Key 16) : forges v.fipsCompress (fun _ => crateWorld v m k.1) (replay v) [] := by
  have hb : v.block + 1 < 2 ^ 61 := by cases v <;> decide
  have h1 : k.1.length < 2 ^ 61 := by rw [k.2]; decide
  unfold replay forges
  rw [show (crateWorld v m k.1).tag [1] = some (Spec.hmac v.fips v.block k.1 [1]) from C06_hmac_rfc2104 v m k.1 [1] h1 hb]
  unfold forges
  exact .inl ⟨by simp, (C08_verify_iff v m k.1 [1] _ h1 hb).trans (by simp)⟩

end CryptoPure.Props.HmacMulti
