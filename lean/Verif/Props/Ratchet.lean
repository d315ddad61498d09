import Verif.Props.SessionKeys
import Verif.Props.ChaChaPerm
import Mathlib.Data.Fin.Tuple.Basic
import Mathlib.Algebra.BigOperators.Finprod

/-! # C142: a ratchet made of `hkdf::expand`

A connection keeps a chain key. For each epoch it derives a record key and the next chain key by `hkdf::expand`, under two contexts, and forgets the old chain
key. Who steals the chain key later learns nothing about the earlier record keys. -/

namespace CryptoPure.Props
open CryptoPure.Model Spec.Sha2 Proofs Proofs.HmacSha Proofs.HmacPrf HmacTests Distinguisher
open Game hiding play forges

/-- Chain keys and record keys are as long as a digest. -/
abbrev Secret (v : Variant) := {k : Bytes // k.length = v.size}

/-- In each epoch `hkdf::expand` of the crate derives, from the chain key, the next chain key under the context `info 0` and the record key under the context
`info 1`. -/
def Ratchet {n : Nat} (v : Variant) (m : Mode) (info : Fin 2 → Bytes) (chain : Fin (n + 1) → Secret v) (records : Fin n → Secret v) : Prop :=
  ∀ i : Fin n, Hkdf.expand v.code m (chain i.castSucc).1 (info 0) (zeros v.size) = some (chain i.succ).1 ∧
    Hkdf.expand v.code m (chain i.castSucc).1 (info 1) (zeros v.size) = some (records i).1

/-- When a ratchet starts with the chain key `first` and runs for `n` epochs, the record keys and the last chain key have the property `P`. -/
def After (v : Variant) (m : Mode) (info : Fin 2 → Bytes) (n : Nat) (P : (Fin n → Secret v) → Secret v → Prop) (first : Secret v) : Prop :=
  ∃ (chain : Fin (n + 1) → Secret v) (records : Fin n → Secret v), chain 0 = first ∧ Ratchet v m info chain records ∧ P records (chain (Fin.last n))

/-- The average of a function over a finite set. -/
noncomputable def average {S : Type} (f : S → ℚ) : ℚ := (∑ᶠ s, f s) / Nat.card S

/-- The sum of the advantages of the tests against `expand`, one for each epoch: the test for an epoch draws the record keys of the earlier epochs, takes the
two keys that it is given for those of this epoch, runs the ratchet for the others and looks at the result through `P`. -/
noncomputable def ratchetAdvantage (v : Variant) (m : Mode) (info : Fin 2 → Bytes) : (n : Nat) → ((Fin n → Secret v) → Secret v → Prop) → ℚ
  | 0, _ => 0
  | n + 1, P => keysAdvantage v v.size info (fun keys : Fin 2 → Secret v => After v m info n (fun rs k => P (Fin.cons (keys 1) rs) k) (keys 0)) +
      average fun r : Secret v => ratchetAdvantage v m info n fun rs k => P (Fin.cons r rs) k

variable {n : Nat} {v : Variant} {m : Mode} {info : Fin 2 → Bytes}

theorem after_zero (P : (Fin 0 → Secret v) → Secret v → Prop) (k : Secret v) : After v m info 0 P k ↔ P Fin.elim0 k := by
  constructor
  · rintro ⟨chain, records, rfl, -, h⟩
    rw [show (Fin.elim0 : Fin 0 → Secret v) = records from funext fun i => i.elim0]
    exact h
  · exact fun h => ⟨fun _ => k, Fin.elim0, rfl, fun i => i.elim0, h⟩

theorem after_succ (P : (Fin (n + 1) → Secret v) → Secret v → Prop) (k : Secret v) : After v m info (n + 1) P k ↔
    ∃ keys : Fin 2 → Secret v, Derived v m k.1 info keys ∧ After v m info n (fun rs k => P (Fin.cons (keys 1) rs) k) (keys 0) := by
  constructor
  · rintro ⟨chain, records, rfl, h, hP⟩
    refine ⟨![chain 1, records 0], ?_, Fin.tail chain, Fin.tail records, rfl, fun i => ?_, ?_⟩
    · intro i
      match i with
      | 0 => exact (h 0).1
      | 1 => exact (h 0).2
    · exact h i.succ
    · show P (Fin.cons (records 0) (Fin.tail records)) (chain (Fin.last n).succ)
      rw [Fin.cons_self_tail, Fin.succ_last]
      exact hP
  · rintro ⟨keys, hd, chain, records, h0, h, hP⟩
    refine ⟨Fin.cons k chain, Fin.cons (keys 1) records, rfl, fun i => ?_, ?_⟩
    · refine Fin.cases ?_ (fun i => ?_) i
      · refine ⟨?_, hd 1⟩
        have := hd 0
        rw [← h0] at this
        exact this
      · have := h i
        rw [← Fin.succ_castSucc]
        exact this
    · rw [← Fin.succ_last]
      exact hP

instance (v : Variant) : Nonempty (Secret v) := ⟨⟨zeros v.size, by simp⟩⟩
instance secretFinite (v : Variant) : Finite (Secret v) := Nat.finite_of_card_ne_zero (by rw [card_digest]; positivity)

/-- **The keys of a ratchet exist and are determined by the first chain key**: `expand` never panics here. -/
theorem C142_exists (v : Variant) (m : Mode) (info : Fin 2 → Bytes) (I : Nat) (hI : v.block + (v.size + I + 1) < 2 ^ 61) (hi : ∀ i, (info i).length ≤ I)
    (n : Nat) (first : Secret v) :
    ∃! keys : (Fin (n + 1) → Secret v) × (Fin n → Secret v), keys.1 0 = first ∧ Ratchet v m info keys.1 keys.2 := by
  have hd : ∀ k : Secret v, ∃! keys : Fin 2 → Secret v, Derived v m k.1 info keys := fun k =>
    C124_derived v m k.1 I k.2.ge (by rw [k.2]; cases v <;> decide) hI (by cases v <;> decide) (fun _ => by cases v <;> decide) info hi
  have hex : ∀ n (first : Secret v), After v m info n (fun _ _ => True) first := by
    intro n
    induction n with
    | zero => exact fun first => (after_zero _ _).mpr trivial
    | succ n ih =>
      intro first
      obtain ⟨keys, hk, -⟩ := hd first
      exact (after_succ _ _).mpr ⟨keys, hk, ih _⟩
  obtain ⟨chain, records, h0, h, -⟩ := hex n first
  refine ⟨(chain, records), ⟨h0, h⟩, ?_⟩
  rintro ⟨chain', records'⟩ ⟨h0', h'⟩
  change chain' 0 = first at h0'
  change Ratchet v m info chain' records' at h'
  have hc : chain' = chain := by
    funext i
    induction i using Fin.induction with
    | zero => exact h0'.trans h0.symm
    | succ i ih =>
      have h1 := (h' i).1
      rw [ih, (h i).1] at h1
      exact (Subtype.ext (Option.some.inj h1)).symm
  have hr : records' = records := by
    funext i
    have h1 := (h' i).2
    rw [hc, (h i).2] at h1
    exact (Subtype.ext (Option.some.inj h1)).symm
  rw [hc, hr]

/-- **There is no recovery**: two ratchets with the same chain key at some point have the same keys from there on. Who steals a chain key can compute all later
keys. -/
theorem C142_no_recovery (chain chain' : Fin (n + 1) → Secret v) (records records' : Fin n → Secret v) (h : Ratchet v m info chain records)
    (h' : Ratchet v m info chain' records') (i : Fin (n + 1)) (hi : chain i = chain' i) :
    (∀ j, i ≤ j → chain j = chain' j) ∧ ∀ j : Fin n, i ≤ j.castSucc → records j = records' j := by
  have hc : ∀ j, i ≤ j → chain j = chain' j := by
    intro j
    induction j using Fin.induction with
    | zero =>
      intro hij
      rw [Fin.le_zero_iff.mp hij] at hi
      exact hi
    | succ j ih =>
      intro hij
      rcases eq_or_lt_of_le hij with e | e
      · rw [← e]
        exact hi
      · have h1 := (h j).1
        rw [ih (Fin.le_castSucc_iff.mpr e), (h' j).1] at h1
        exact (Subtype.ext (Option.some.inj h1)).symm
  refine ⟨hc, fun j hij => ?_⟩
  have h1 := (h j).2
  rw [hc _ hij, (h' j).2] at h1
  exact (Subtype.ext (Option.some.inj h1)).symm

/-! ## Earlier keys -/

theorem average_add {S : Type} [Finite S] [Nonempty S] (f : S → ℚ) (c : ℚ) : average (fun s => f s + c) = average f + c := by
  have : Fintype S := Fintype.ofFinite S
  have hpos : (0 : ℚ) < Nat.card S := by exact_mod_cast Nat.card_pos
  unfold average
  rw [finsum_eq_sum_of_fintype, finsum_eq_sum_of_fintype, Finset.sum_add_distrib, Finset.sum_const, Finset.card_univ, nsmul_eq_mul, add_div,
    ← Nat.card_eq_fintype_card, mul_div_cancel_left₀ _ hpos.ne']

theorem prob_average {α S : Type} [Finite α] [Finite S] (P : α × S → Prop) : prob P = average fun s => prob fun a => P (a, s) := by
  have : Fintype S := Fintype.ofFinite S
  unfold average
  rw [prob_prod, finsum_eq_sum_of_fintype, Nat.card_eq_fintype_card]

theorem average_close {S : Type} [Finite S] [Nonempty S] (f g h : S → ℚ) (hle : ∀ s, |f s - g s| ≤ h s) : |average f - average g| ≤ average h := by
  have : Fintype S := Fintype.ofFinite S
  have hpos : (0 : ℚ) < Nat.card S := by exact_mod_cast Nat.card_pos
  unfold average
  rw [finsum_eq_sum_of_fintype, finsum_eq_sum_of_fintype, finsum_eq_sum_of_fintype, ← sub_div, ← Finset.sum_sub_distrib, abs_div, abs_of_pos hpos]
  exact div_le_div_of_nonneg_right ((Finset.abs_sum_le_sum_abs _ _).trans (Finset.sum_le_sum fun s _ => hle s)) hpos.le

/-- **Forward secrecy.** Whatever one does with all record keys and the last chain key: when they come from a ratchet with a random first chain key, the
probability of the result differs from that for independent uniform keys by at most the advantages of the tests against `expand` of the crate, plus for each epoch
the probability `δ` that two texts collide in the inner hash. So who gets the last chain key, and all record keys but one, learns nothing about that one. -/
theorem C142_forward_secrecy (v : Variant) (m : Mode) (info : Fin 2 → Bytes) (hne : info 0 ≠ info 1) (I : Nat) (hI : v.block + (v.size + I + 1) < 2 ^ 61)
    (hi : ∀ i, (info i).length ≤ I) (δ : ℚ) (hδ0 : 0 ≤ δ)
    (hδ : ∀ M M' : Bytes, M.length ≤ v.size + I + 1 → M'.length ≤ v.size + I + 1 → M ≠ M' → innerCollision v M M' ≤ δ)
    (n : Nat) (P : (Fin n → Secret v) → Secret v → Prop) :
    |prob (After v m info n P) - prob (fun keys : (Fin n → Secret v) × Secret v => P keys.1 keys.2)| ≤ ratchetAdvantage v m info n P + n * δ := by
  have hinj : Function.Injective info := by
    intro i j e
    match i, j with
    | 0, 0 => rfl
    | 1, 1 => rfl
    | 0, 1 => exact absurd e hne
    | 1, 0 => exact absurd e.symm hne
  induction n with
  | zero =>
    have e : prob (fun keys : (Fin 0 → Secret v) × Secret v => P keys.1 keys.2) = prob (After v m info 0 P) := by
      rw [← prob_snd (α := Fin 0 → Secret v) (After v m info 0 P)]
      refine hmac_prob_congr fun keys => ?_
      rw [after_zero, show keys.1 = Fin.elim0 from funext fun i => i.elim0]
    rw [e, sub_self, abs_zero, ratchetAdvantage]
    simp
  | succ n ih =>
    obtain ⟨Q, hQ⟩ : ∃ Q : (Fin 2 → Secret v) → Prop, Q = fun keys => After v m info n (fun rs k => P (Fin.cons (keys 1) rs) k) (keys 0) := ⟨_, rfl⟩
    have h1 := C124_session_keys v m v.size I le_rfl (by cases v <;> decide) hI (by cases v <;> decide) (fun _ => by cases v <;> decide) info hinj hi Q δ hδ0
      hδ 2 (by cases v <;> rfl)
    have e1 : prob (fun prk : {k : Bytes // k.length = v.size} => ∃ keys : Fin 2 → {k : Bytes // k.length = v.size}, Derived v m prk.1 info keys ∧ Q keys) =
        prob (After v m info (n + 1) P) := hmac_prob_congr fun prk => by rw [after_succ, hQ]
    have e2 : prob Q = average fun r => prob (After v m info n fun rs k => P (Fin.cons r rs) k) := by
      rw [← prob_equiv (finTwoArrowEquiv (Secret v)).symm Q, prob_average, hQ]
      rfl
    have e3 : prob (fun keys : (Fin (n + 1) → Secret v) × Secret v => P keys.1 keys.2) =
        average fun r => prob (fun keys : (Fin n → Secret v) × Secret v => P (Fin.cons r keys.1) keys.2) := by
      rw [← prob_average (fun q : ((Fin n → Secret v) × Secret v) × Secret v => P (Fin.cons q.2 q.1.1) q.1.2)]
      let E : ((Fin n → Secret v) × Secret v) × Secret v ≃ (Fin (n + 1) → Secret v) × Secret v :=
        { toFun := fun q => (Fin.cons q.2 q.1.1, q.1.2)
          invFun := fun q => ((Fin.tail q.1, q.2), q.1 0)
          left_inv := fun q => by simp
          right_inv := fun q => by simp }
      rw [← prob_equiv E]
      rfl
    have h2 := average_close _ _ _ fun r : Secret v => ih fun rs k => P (Fin.cons r rs) k
    rw [average_add, ← e2, ← e3] at h2
    rw [e1] at h1
    rw [ratchetAdvantage, ← hQ]
    have e4 : ((2 : Nat) : ℚ) * ((2 : Nat) - 1) / 2 * δ = δ := by push_cast; ring
    rw [e4] at h1
    push_cast
    have := abs_le.mp h1
    have := abs_le.mp h2
    rw [abs_le]
    constructor <;> linarith

/-! ## Records -/

open MultiGame in
/-- **Records of a ratchet, after the chain key is stolen.** Each epoch uses its record key for ChaCha20-Poly1305 of the crate. An attacker who is given the
chain key after `n` epochs makes encryptions and decryptions under the `n` record keys. It tells the first messages of its pairs from the second ones with advantage
at most: the advantages of the tests against `expand` and `δ` for each epoch, twice, plus the bound of C121 for independent random keys. -/
theorem C142_chacha_confidentiality (m : Mode) (info : Fin 2 → Bytes) (hne : info 0 ≠ info 1) (I : Nat) (hI : 64 + (32 + I + 1) < 2 ^ 61)
    (hi : ∀ i, (info i).length ≤ I) (δ : ℚ) (hδ0 : 0 ≤ δ)
    (hδ : ∀ M M' : Bytes, M.length ≤ 32 + I + 1 → M'.length ≤ 32 + I + 1 → M ≠ M' → innerCollision .sha256 M M' ≤ δ)
    (n : Nat) (A : ChaChaKey → Adversary n) (a b : Nat) (hb : b ≤ 2 ^ 34 - 16) (hA : ∀ k, Within authCount b (A k) a) (ε : ℚ)
    (hε : ∀ k, chachaAdvantages n (guessTest (ccpOver m) ccpPoints false (A k)) + chachaAdvantages n (guessTest (ccpOver m) ccpPoints true (A k)) ≤ ε) :
    |prob (After .sha256 m info n fun records last => play (chachaPoly m) false records (A last) [] = true) -
      prob (After .sha256 m info n fun records last => play (chachaPoly m) true records (A last) [] = true)| ≤
      (ratchetAdvantage .sha256 m info n (fun records last => play (chachaPoly m) false records (A last) [] = true) + n * δ) +
      (ratchetAdvantage .sha256 m info n (fun records last => play (chachaPoly m) true records (A last) [] = true) + n * δ) +
        (ε + 2 * (a * (1480 * b) / 2 ^ 106)) := by
  have h1 := fun right => C142_forward_secrecy .sha256 m info hne I hI hi δ hδ0 hδ n (fun records last => play (chachaPoly m) right records (A last) [] = true)
  have h2 : |prob (fun keys : (Fin n → ChaChaKey) × ChaChaKey => play (chachaPoly m) false keys.1 (A keys.2) [] = true) -
      prob (fun keys : (Fin n → ChaChaKey) × ChaChaKey => play (chachaPoly m) true keys.1 (A keys.2) [] = true)| ≤ ε + 2 * (a * (1480 * b) / 2 ^ 106) := by
    refine prob_prod_close _ _ _ fun k => ?_
    have := C121_chacha_confidentiality m (A k) a b hb (hA k)
    have := hε k
    linarith
  exact events_le (h1 false) (h1 true) h2

open MultiGame in
/-- **The same with AES-256-GCM of the crate.** -/
theorem C142_aes_confidentiality (m : Mode) (info : Fin 2 → Bytes) (hne : info 0 ≠ info 1) (I : Nat) (hI : 64 + (32 + I + 1) < 2 ^ 61)
    (hi : ∀ i, (info i).length ≤ I) (δ : ℚ) (hδ0 : 0 ≤ δ)
    (hδ : ∀ M M' : Bytes, M.length ≤ 32 + I + 1 → M'.length ≤ 32 + I + 1 → M ≠ M' → innerCollision .sha256 M M' ≤ δ)
    (n : Nat) (A : AesKey .aes256 → Adversary n) (a b : Nat) (hb : b ≤ 2 ^ 32 - 3) (hA : ∀ k, Within authCount b (A k) a) (ε : ℚ)
    (hε : ∀ k, aesAdvantages n .aes256 (guessTest (gcmScheme oracle m) gcmPoints false (A k)) +
      aesAdvantages n .aes256 (guessTest (gcmScheme oracle m) gcmPoints true (A k)) ≤ ε) :
    |prob (After .sha256 m info n fun records last => play (aesGcm .aes256 m) false records (A last) [] = true) -
      prob (After .sha256 m info n fun records last => play (aesGcm .aes256 m) true records (A last) [] = true)| ≤
      (ratchetAdvantage .sha256 m info n (fun records last => play (aesGcm .aes256 m) false records (A last) [] = true) + n * δ) +
      (ratchetAdvantage .sha256 m info n (fun records last => play (aesGcm .aes256 m) true records (A last) [] = true) + n * δ) +
        (ε + 2 * (a * b / 2 ^ 128)) := by
  have h1 := fun right => C142_forward_secrecy .sha256 m info hne I hI hi δ hδ0 hδ n
    (fun records last => play (aesGcm .aes256 m) right records (A last) [] = true)
  have h2 : |prob (fun keys : (Fin n → AesKey .aes256) × AesKey .aes256 => play (aesGcm .aes256 m) false keys.1 (A keys.2) [] = true) -
      prob (fun keys : (Fin n → AesKey .aes256) × AesKey .aes256 => play (aesGcm .aes256 m) true keys.1 (A keys.2) [] = true)| ≤
      ε + 2 * (a * b / 2 ^ 128) := by
    have : Nonempty (AesKey .aes256) := ⟨⟨zeros 32, by decide⟩⟩
    have : Finite (AesKey .aes256) := secretFinite .sha256
    refine prob_prod_close _ _ _ fun k => ?_
    have := C121_aes_confidentiality .aes256 m (A k) a b hb (hA k)
    have := hε k
    linarith
  exact events_le (h1 false) (h1 true) h2

open MultiGame in
/-- **Forging records of a ratchet.** Such an attacker makes a decryption under one of the record keys accept what no encryption under this key returned with at most:
the advantages of the tests against `expand` and `δ` for each epoch, plus the bound of C121 for independent random keys. -/
theorem C142_chacha_forgery (m : Mode) (info : Fin 2 → Bytes) (hne : info 0 ≠ info 1) (I : Nat) (hI : 64 + (32 + I + 1) < 2 ^ 61)
    (hi : ∀ i, (info i).length ≤ I) (δ : ℚ) (hδ0 : 0 ≤ δ)
    (hδ : ∀ M M' : Bytes, M.length ≤ 32 + I + 1 → M'.length ≤ 32 + I + 1 → M ≠ M' → innerCollision .sha256 M M' ≤ δ)
    (n : Nat) (A : ChaChaKey → Adversary n) (a b : Nat) (hb : b ≤ 2 ^ 34 - 16) (hA : ∀ k, Within authCount b (A k) a) (right : Bool) (ε : ℚ)
    (hε : ∀ k, chachaAdvantages n (forgeryTest (ccpOver m) ccpPoints right (A k)) ≤ ε) :
    prob (After .sha256 m info n fun records last => forges (chachaPoly m) right records (A last) []) ≤
      (ratchetAdvantage .sha256 m info n (fun records last => forges (chachaPoly m) right records (A last) []) + n * δ) +
        (ε + a * (1480 * b) / 2 ^ 106) := by
  refine event_le (C142_forward_secrecy .sha256 m info hne I hI hi δ hδ0 hδ n (fun records last => forges (chachaPoly m) right records (A last) [])) ?_
  refine prob_prod_le (α := Fin n → ChaChaKey) (β := ChaChaKey) (fun keys => forges (chachaPoly m) right keys.1 (A keys.2) []) _ fun k => ?_
  have := C121_chacha_forgery m (A k) a b hb (hA k) right
  have := hε k
  linarith

open MultiGame in
/-- **The same with AES-256-GCM of the crate.** -/
theorem C142_aes_forgery (m : Mode) (info : Fin 2 → Bytes) (hne : info 0 ≠ info 1) (I : Nat) (hI : 64 + (32 + I + 1) < 2 ^ 61)
    (hi : ∀ i, (info i).length ≤ I) (δ : ℚ) (hδ0 : 0 ≤ δ)
    (hδ : ∀ M M' : Bytes, M.length ≤ 32 + I + 1 → M'.length ≤ 32 + I + 1 → M ≠ M' → innerCollision .sha256 M M' ≤ δ)
    (n : Nat) (A : AesKey .aes256 → Adversary n) (a b : Nat) (hb : b ≤ 2 ^ 32 - 3) (hA : ∀ k, Within authCount b (A k) a) (right : Bool) (ε : ℚ)
    (hε : ∀ k, aesAdvantages n .aes256 (forgeryTest (gcmScheme oracle m) gcmPoints right (A k)) ≤ ε) :
    prob (After .sha256 m info n fun records last => forges (aesGcm .aes256 m) right records (A last) []) ≤
      (ratchetAdvantage .sha256 m info n (fun records last => forges (aesGcm .aes256 m) right records (A last) []) + n * δ) +
        (ε + a * b / 2 ^ 128) := by
  refine event_le (C142_forward_secrecy .sha256 m info hne I hI hi δ hδ0 hδ n (fun records last => forges (aesGcm .aes256 m) right records (A last) [])) ?_
  have : Nonempty (AesKey .aes256) := ⟨⟨zeros 32, by decide⟩⟩
  have : Finite (AesKey .aes256) := secretFinite .sha256
  refine prob_prod_le (α := Fin n → AesKey .aes256) (β := AesKey .aes256) (fun keys => forges (aesGcm .aes256 m) right keys.1 (A keys.2) []) _ fun k => ?_
  have := C121_aes_forgery .aes256 m (A k) a b hb (hA k) right
  have := hε k
  linarith

/-! ## A concrete case -/

/-- Two epochs, and an attacker that moves a ciphertext from one to the other with the stolen chain key as its data. -/
def replayWith (k : ChaChaKey) : MultiGame.Adversary 2 :=
  .encrypt 0 (zeros 12) k.1 (zeros 16) (List.replicate 16 1) (zeros 16) fun r =>
    match r with
    | none => .stop false
    | some (ct, t) => .decrypt 1 (zeros 12) k.1 (ct.take 16) t (zeros 16) fun _ => .stop true

theorem replayWith_within (k : ChaChaKey) : MultiGame.Within authCount 4 (replayWith k) 1 := by
  have hk := k.2
  refine ⟨by unfold authCount; rw [hk]; decide, fun r => ?_⟩
  match r with
  | none => trivial
  | some (ct, t) =>
    refine ⟨?_, 0, rfl, fun _ => trivial⟩
    unfold authCount
    rw [hk, List.length_take]
    omega

example (m : Mode) (ε : ℚ) (hε : ∀ k, chachaAdvantages 2 (MultiGame.forgeryTest (ccpOver m) ccpPoints true (replayWith k)) ≤ ε) :
    prob (After .sha256 m directions 2 fun records last => MultiGame.forges (chachaPoly m) true records (replayWith last) []) ≤
      (ratchetAdvantage .sha256 m directions 2 (fun records last => MultiGame.forges (chachaPoly m) true records (replayWith last) []) +
        (2 : Nat) * ((Variant.sha256.blocks 34 + 1) * 1 + 1 / 256 ^ 32)) + (ε + (1 : Nat) * (1480 * (4 : Nat)) / 2 ^ 106) :=
  C142_chacha_forgery m directions (by decide) 1 (by decide) (by decide) _ (by positivity)
    (C122_inner .sha256 (Or.inl rfl) 34 (by decide) 1 zero_le_one fun _ _ _ _ D _ => chainAdvantage_le_one .sha256 D) 2 replayWith 1 4 (by norm_num)
    replayWith_within true ε hε

example (m : Mode) (first : Secret .sha384) : ∃! keys : (Fin 1001 → Secret .sha384) × (Fin 1000 → Secret .sha384),
    keys.1 0 = first ∧ Ratchet .sha384 m directions keys.1 keys.2 :=
  C142_exists .sha384 m directions 1 (by decide) (by decide) 1000 first

end CryptoPure.Props
