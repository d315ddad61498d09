import Verif.Proofs.MultiSwitch
import Verif.Props.SessionKeys

/-! # C125: many AES keys, compared with random permutations

C121 compares AES with random functions. AES is a permutation, so this costs something: here it is made explicit. What
counts is the data of all users times the data of one user. -/

namespace CryptoPure.Switch
open Distinguisher

variable {ι α : Type} [DecidableEq ι]

theorem Budget.mono {B : Nat} {D : Distinguisher (ι × α) α} {q q' : Nat} {used used' : ι → Nat} (h : Budget B D q used) (hq : q ≤ q')
    (hu : ∀ i, used' i ≤ used i) : Budget B D q' used' := by
  induction D generalizing q q' used used' with
  | verdict b => trivial
  | ask x next ih =>
    obtain ⟨q, rfl, h1, h2⟩ := h
    have hx := hu x.1
    refine ⟨q' - 1, by omega, by omega, fun y => ih y (h2 y) (by omega) fun i => ?_⟩
    by_cases hi : i = x.1
    · subst hi; rw [Function.update_self, Function.update_self]; omega
    · rw [Function.update_of_ne hi, Function.update_of_ne hi]; exact hu i

theorem budget_askAll {B : Nat} (i : ι) (xs : List α) (next : List ((ι × α) × α) → Distinguisher (ι × α) α) (q : Nat) (used : ι → Nat)
    (hB : used i + xs.length ≤ B) (h : ∀ t, Budget B (next t) q (Function.update used i (used i + xs.length))) :
    Budget B (askAll (xs.map fun x => (i, x)) next) (xs.length + q) used := by
  induction xs generalizing next used with
  | nil => simpa [askAll] using h []
  | cons x xs ih =>
    rw [List.length_cons] at hB h
    refine ⟨xs.length + q, by rw [List.length_cons]; omega, ?_, fun y => ih _ _ ?_ fun t => ?_⟩
    · show used i + 1 ≤ B
      omega
    · show Function.update used i (used i + 1) i + xs.length ≤ B
      rw [Function.update_self]; omega
    · have := h (((i, x), y) :: t)
      show Switch.Budget B _ q (Function.update (Function.update used i (used i + 1)) i (Function.update used i (used i + 1) i + xs.length))
      rw [Function.update_self, Function.update_idem, show used i + 1 + xs.length = used i + (xs.length + 1) by omega]
      exact this

end CryptoPure.Switch

namespace CryptoPure.MultiGame
open Switch Distinguisher
open Game (Scheme)

variable {u : Nat} {α : Type} [DecidableEq α] [Inhabited α]

omit [DecidableEq α] [Inhabited α] in
theorem pointsOver_code (points : Bytes → Nat → List α) (i : Fin u) (nonce : Bytes) (l : Nat) :
    pointsOver u points (code i nonce) l = (points nonce l).map fun x => (i, x) := by
  unfold pointsOver
  rw [user_code]

theorem update_le {used : Fin u → Nat} {i : Fin u} {a b : Nat} (h : a ≤ b) (j : Fin u) :
    Function.update used i (used i + a) j ≤ Function.update used i (used i + b) j := by
  by_cases hj : j = i
  · subst hj; rw [Function.update_self, Function.update_self]; omega
  · rw [Function.update_of_ne hj, Function.update_of_ne hj]

theorem le_update {used : Fin u → Nat} {i : Fin u} {b : Nat} (j : Fin u) : used j ≤ Function.update used i (used i + b) j := by
  by_cases hj : j = i
  · subst hj; rw [Function.update_self]; omega
  · rw [Function.update_of_ne hj]

/-- The tests ask for no more than the calls cost, for each user and altogether. -/
theorem tests_budget {S : Scheme (α → α)} {points : Bytes → Nat → List α} {cost : Nat → Nat} (hc : ∀ nonce l, (points nonce l).length ≤ cost l)
    (right : Bool) (A : Adversary u) (s B : Nat) (used : Fin u → Nat) (hA : Costs cost A s) (hB : CostsEach cost B A used) (log : Game.Log) :
    Budget B (Distinguisher.forgeryTest (over u S) (pointsOver u points) right (single A) log) s used ∧
    Budget B (Distinguisher.guessTest (over u S) (pointsOver u points) right (single A) log) s used := by
  induction A generalizing s used log with
  | stop g => exact ⟨trivial, trivial⟩
  | encrypt i nonce data msg msg' buffer next ih =>
    obtain ⟨s', rfl, h⟩ := hA
    obtain ⟨hb, h'⟩ := hB
    have hp := hc nonce msg.length
    unfold single Distinguisher.forgeryTest Distinguisher.guessTest
    by_cases hr : code i nonce ∈ log.map Prod.fst ∨ msg.length ≠ msg'.length
    · rw [if_pos hr, if_pos hr]
      have := ih none s' _ (h _) (h' _) log
      exact ⟨this.1.mono (by omega) fun j => le_update j, this.2.mono (by omega) fun j => le_update j⟩
    · rw [if_neg hr, if_neg hr, pointsOver_code]
      constructor
      · refine (budget_askAll (B := B) i (points nonce msg.length) _ s' used (by omega) fun t => ?_).mono (by omega) fun _ => le_refl _
        split
        · exact ((ih none s' _ (h _) (h' _) log).1).mono (le_refl _) (update_le hp)
        · exact ((ih _ s' _ (h _) (h' _) _).1).mono (le_refl _) (update_le hp)
      · refine (budget_askAll (B := B) i (points nonce msg.length) _ s' used (by omega) fun t => ?_).mono (by omega) fun _ => le_refl _
        split
        · exact ((ih none s' _ (h _) (h' _) log).2).mono (le_refl _) (update_le hp)
        · exact ((ih _ s' _ (h _) (h' _) _).2).mono (le_refl _) (update_le hp)
  | decrypt i nonce data ct t buffer next ih =>
    obtain ⟨s', rfl, h⟩ := hA
    obtain ⟨hb, h'⟩ := hB
    have hp := hc nonce ct.length
    unfold single Distinguisher.forgeryTest Distinguisher.guessTest
    by_cases hr : (code i nonce, data, ct, t) ∈ log
    · rw [if_pos hr, if_pos hr]
      have := ih none s' _ (h _) (h' _) log
      exact ⟨this.1.mono (by omega) fun j => le_update j, this.2.mono (by omega) fun j => le_update j⟩
    · rw [if_neg hr, if_neg hr, pointsOver_code]
      constructor
      · refine (budget_askAll (B := B) i (points nonce ct.length) _ s' used (by omega) fun t => ?_).mono (by omega) fun _ => le_refl _
        split
        · trivial
        · exact ((ih _ s' _ (h _) (h' _) _).1).mono (le_refl _) (update_le hp)
      · refine (budget_askAll (B := B) i (points nonce ct.length) _ s' used (by omega) fun t => ?_).mono (by omega) fun _ => le_refl _
        exact ((ih _ s' _ (h _) (h' _) _).2).mono (le_refl _) (update_le hp)

end CryptoPure.MultiGame

namespace CryptoPure.Props
open CryptoPure.Model CryptoPure.MultiGame
open Distinguisher (Distinguisher advantage)
open Game (Scheme prob)

variable {u : Nat}

/-- How well `D` tells AES under `u` independent random keys from `u` independent random permutations of the blocks. -/
noncomputable abbrev aesPermAdvantages (u : Nat) (k : AesKind) (D : Distinguisher (Fin u × BitVec 128) (BitVec 128)) : ℚ :=
  advantage (fun (keys : Fin u → AesKey k) x => aesFunction k (keys x.1) x.2)
    (fun (π : Fin u → Equiv.Perm (BitVec 128)) (x : Fin u × BitVec 128) => π x.1 x.2) D

/-- Random functions against random permutations, for the two tests. -/
theorem C125_switch (k : AesKind) (m : Mode) (A : Adversary u) (s B : Nat) (hB1 : 1 ≤ B) (hs : Costs gcmCost A s) (hB : CostsEach gcmCost B A (fun _ => 0))
    (right : Bool) :
    aesAdvantages u k (forgeryTest (gcmScheme oracle m) gcmPoints right A) ≤
      aesPermAdvantages u k (forgeryTest (gcmScheme oracle m) gcmPoints right A) + s * (B - 1) / 2 ^ 129 ∧
    aesAdvantages u k (guessTest (gcmScheme oracle m) gcmPoints right A) ≤
      aesPermAdvantages u k (guessTest (gcmScheme oracle m) gcmPoints right A) + s * (B - 1) / 2 ^ 129 := by
  have hb := tests_budget (S := gcmScheme oracle m) gcmPoints_length right A s B (fun _ => 0) hs hB []
  have key : ∀ D : Distinguisher (Fin u × BitVec 128) (BitVec 128), Switch.Budget B D s (fun _ => 0) →
      aesAdvantages u k D ≤ aesPermAdvantages u k D + s * (B - 1) / 2 ^ 129 := by
    intro D hD
    have h1 := Switch.multi_switch B hB1 D s hD
    rw [card_block] at h1
    have e : ((s : ℚ) * (B - 1) / 2) / ((2 ^ 128 : Nat) : ℚ) = s * (B - 1) / 2 ^ 129 := by
      push_cast
      rw [div_div]
      norm_num
    rw [e] at h1
    unfold aesAdvantages aesPermAdvantages advantage
    have h2 := abs_sub_le (prob (fun keys : Fin u → AesKey k => D.run (fun x => aesFunction k (keys x.1) x.2) = true))
      (prob (fun π : Fin u → Equiv.Perm (BitVec 128) => D.run (fun x => π x.1 x.2) = true))
      (prob (fun F : Fin u → BlockFunction => D.run (fun x => F x.1 x.2) = true))
    rw [abs_sub_comm] at h1
    exact h2.trans (add_le_add_right h1 _)
  exact ⟨key _ hb.1, key _ hb.2⟩

/-- **Forging AES-GCM of the crate with many random keys**, with at most `s` blocks encrypted with AES altogether and at most `B` under each key:
the probability is at most the advantage with which the distinguisher made of the attack tells AES from random permutations, plus
`a n / 2^128 + s (B - 1) / 2^129`. For one user (`B = s`) this is C120. -/
theorem C125_forgery (k : AesKind) (m : Mode) (A : Adversary u) (a n s B : Nat) (hn : n ≤ 2 ^ 32 - 3) (hA : Within authCount n A a) (hB1 : 1 ≤ B)
    (hs : Costs gcmCost A s) (hB : CostsEach gcmCost B A (fun _ => 0)) (right : Bool) :
    prob (fun keys : Fin u → AesKey k => forges (aesGcm k m) right keys A []) ≤
      aesPermAdvantages u k (forgeryTest (gcmScheme oracle m) gcmPoints right A) + a * n / 2 ^ 128 + s * (B - 1) / 2 ^ 129 := by
  have h1 := C121_aes_forgery k m A a n hn hA right
  have h2 := (C125_switch k m A s B hB1 hs hB right).1
  linarith

/-- **Reading AES-GCM of the crate with many random keys.** -/
theorem C125_confidentiality (k : AesKind) (m : Mode) (A : Adversary u) (a n s B : Nat) (hn : n ≤ 2 ^ 32 - 3) (hA : Within authCount n A a) (hB1 : 1 ≤ B)
    (hs : Costs gcmCost A s) (hB : CostsEach gcmCost B A (fun _ => 0)) :
    |prob (fun keys : Fin u → AesKey k => play (aesGcm k m) false keys A [] = true) -
        prob (fun keys : Fin u → AesKey k => play (aesGcm k m) true keys A [] = true)| ≤
      aesPermAdvantages u k (guessTest (gcmScheme oracle m) gcmPoints false A) +
      aesPermAdvantages u k (guessTest (gcmScheme oracle m) gcmPoints true A) + 2 * (a * n / 2 ^ 128) + s * (B - 1) / 2 ^ 128 := by
  have h1 := C121_aes_confidentiality k m A a n hn hA
  have h2 := (C125_switch k m A s B hB1 hs hB false).2
  have h3 := (C125_switch k m A s B hB1 hs hB true).2
  have e : (s : ℚ) * (B - 1) / 2 ^ 128 = s * (B - 1) / 2 ^ 129 + s * (B - 1) / 2 ^ 129 := by ring
  rw [e]
  linarith

/-- **Forging with keys that `hkdf::expand` derived from one random secret** (C124). -/
theorem C125_derived_forgery (k : AesKind) (v : Variant) (m : Mode) (kl I : Nat) (h1 : v.size ≤ kl) (h2 : kl ≤ v.block)
    (hI : v.block + (v.size + I + 1) < 2 ^ 61) (info : Fin u → Bytes) (hinj : Function.Injective info) (hi : ∀ i, (info i).length ≤ I)
    (δ : ℚ) (hδ0 : 0 ≤ δ)
    (hδ : ∀ M M' : Bytes, M.length ≤ v.size + I + 1 → M'.length ≤ v.size + I + 1 → M ≠ M' → innerCollision v M M' ≤ δ)
    (q : Nat) (hq : q = u * ((4 * k.Nk + v.size - 1) / v.size))
    (A : Adversary u) (a n s B : Nat) (hn : n ≤ 2 ^ 32 - 3) (hA : Within authCount n A a) (hB1 : 1 ≤ B)
    (hs : Costs gcmCost A s) (hB : CostsEach gcmCost B A (fun _ => 0)) (right : Bool) :
    prob (fun prk : {k : Bytes // k.length = kl} => ∃ keys : Fin u → AesKey k, Derived v m prk.1 info keys ∧
        forges (aesGcm k m) right keys A []) ≤
      keysAdvantage v kl info (fun keys : Fin u → AesKey k => forges (aesGcm k m) right keys A []) + q * (q - 1) / 2 * δ +
        aesPermAdvantages u k (forgeryTest (gcmScheme oracle m) gcmPoints right A) + a * n / 2 ^ 128 + s * (B - 1) / 2 ^ 129 := by
  have h1 := C124_aes_forgery k v m kl I h1 h2 hI info hinj hi δ hδ0 hδ q hq A a n hn hA right
  have h2 := (C125_switch k m A s B hB1 hs hB right).1
  linarith

/-! ## A concrete case -/

theorem crossUser_costs : Costs gcmCost crossUser 8 ∧ CostsEach gcmCost 4 crossUser (fun _ => 0) := by
  have h : ∀ ct : Bytes, gcmCost (ct.take 20).length ≤ 4 := by
    intro ct
    have : (ct.take 20).length ≤ 20 := by simp
    unfold gcmCost
    omega
  constructor
  · refine ⟨4, by decide, fun r => ?_⟩
    match r with
    | none => trivial
    | some (ct, t) => exact ⟨4 - gcmCost (ct.take 20).length, by have := h ct; omega, fun _ => trivial⟩
  · refine ⟨by decide, fun r => ?_⟩
    match r with
    | none => trivial
    | some (ct, t) =>
      refine ⟨?_, fun _ => trivial⟩
      rw [Function.update_of_ne (by decide)]
      simpa using h ct

example : prob (fun keys => forges (aesGcm .aes128 .release) true keys crossUser []) ≤
    aesPermAdvantages 2 .aes128 (forgeryTest (gcmScheme oracle .release) gcmPoints true crossUser) + 1 * 3 / 2 ^ 128 + 8 * (4 - 1) / 2 ^ 129 := by
  simpa using C125_forgery .aes128 .release crossUser 1 3 8 4 (by norm_num) crossUser_within (by norm_num) crossUser_costs.1 crossUser_costs.2 true

end CryptoPure.Props
