import Verif.Proofs.Game
import Verif.Props.CcpIdeal

/-! # C89, C90: adaptive adversaries against the authenticated ciphers -/

namespace CryptoPure.Props
open CryptoPure.Model CryptoPure.Game

/-- The number of 16-byte blocks authenticated for data and a message of these lengths. -/
def authCount (dataLength msgLength : Nat) : Nat := (dataLength + 15) / 16 + (msgLength + 15) / 16 + 1

/-! ## C89 -/

/-- GCM of the code over a block cipher. -/
def gcmScheme (E : Model.Aes.BlockCipher) (m : Mode) : Scheme E.State where
  enc k msg nonce data buffer := Model.Gcm.encrypt E m k msg nonce data buffer
  dec k ct nonce data tag buffer := Model.Gcm.decrypt E m k ct nonce data tag buffer

/-- The answer of `decrypt` to a wrong tag. -/
noncomputable def gcmReject (ct nonce data _tag buffer : Bytes) : Option (Bytes × Bool) :=
  open Classical in if Proofs.Gcm.Permitted ct nonce data buffer then some (buffer, false) else none

theorem gcm_good (m : Mode) {n : Nat} (hn : n ≤ 2 ^ 32 - 3) : Good (gcmScheme oracle m) authCount n n (2 ^ 128) gcmReject where
  hide qs h := by
    let f : Exchange → Choice := fun q => ⟨q.nonce, q.data, q.msg, q.msg'⟩
    obtain ⟨σ, hσ⟩ := C79_gcm_hides_messages (qs.map f) (by rw [List.map_map]; exact h.nodup)
      (by intro q hq; rw [List.mem_map] at hq; obtain ⟨q, hq, rfl⟩ := hq; exact h.len q hq)
    have hσ : ∀ F, ∀ q ∈ qs, Model.Gcm.encrypt oracle m (σ F) q.msg' q.nonce q.data q.buffer =
        Model.Gcm.encrypt oracle m F q.msg q.nonce q.data q.buffer := fun F q hq =>
      hσ F (f q) (List.mem_map_of_mem hq) m q.buffer
    rw [← Set.ncard_image_of_injective _ σ.injective]
    congr 1
    ext F
    constructor
    · rintro ⟨F, hF, rfl⟩ q hq
      exact (hσ F q hq).trans (hF q hq)
    · intro hF
      refine ⟨σ.symm F, fun q hq => ?_, by simp⟩
      refine (hσ _ q hq).symm.trans ?_
      rw [Equiv.apply_symm_apply]
      exact hF q hq
  panic F F' msg msg' nonce data buffer hl h := by
    have h : Model.Gcm.encrypt oracle m F msg nonce data buffer = none := h
    show Model.Gcm.encrypt oracle m F' msg' nonce data buffer = none
    refine Proofs.Gcm.encrypt_none oracle F' _ (fun _ _ => rfl) m _ _ _ _ fun hp => ?_
    have hp' : Proofs.Gcm.Permitted msg nonce data buffer ∧ (m = .release ∨ (msg.length + 15) / 16 ≤ 2 ^ 32 - 4) := by
      unfold Proofs.Gcm.Permitted at *
      rw [hl]; exact hp
    rw [Proofs.Gcm.encrypt_ok oracle F _ (fun _ _ => rfl) (oracle_length F) m _ _ _ _ hp'.1 hp'.2] at h
    cases h
  forge right qs h nonce data ct t buffer hb hnew := by
    by_cases hne : (explain (gcmScheme oracle m) right qs).Nonempty
    · obtain ⟨F0, hF0⟩ := hne
      let f : Exchange → Sent := fun q => ⟨q.nonce, q.data, q.sent right, q.buffer, q.ct, q.tag⟩
      have he : explain (gcmScheme oracle m) right qs = explains m (qs.map f) := by
        ext F
        constructor
        · intro hF q hq
          rw [List.mem_map] at hq; obtain ⟨q, hq, rfl⟩ := hq
          exact hF q hq
        · intro hF q hq
          exact hF (f q) (List.mem_map_of_mem hq)
      have h2 := C80_gcm_forgery m m (qs.map f) (by rw [List.map_map]; exact h.nodup) nonce data ct t ?_ n hb ?_
      · rw [he]
        refine le_trans (Nat.mul_le_mul_right _ (Set.ncard_le_ncard ?_ (Set.toFinite _))) h2
        rintro F ⟨h3, out, h4⟩
        exact ⟨h3, buffer, out, h4⟩
      · intro q hq e
        rw [List.mem_map] at hq; obtain ⟨q, hq, rfl⟩ := hq
        exact hnew (List.mem_map.mpr ⟨q, hq, e⟩)
      · intro q hq
        rw [List.mem_map] at hq; obtain ⟨q, hq, rfl⟩ := hq
        obtain ⟨k1, -, k2, -⟩ := sent_facts (q := f q) (hF0 q hq)
        have k3 : q.ct.length = (q.sent right).length := by
          rw [show q.ct = (f q).ct from rfl, k2, Proofs.Gcm.crypt_length _ (oracle_length F0) _ k1.1]
        have k4 : (q.sent right).length = q.msg.length := by
          unfold Exchange.sent
          split
          · exact (h.len q hq).symm
          · rfl
        have := h.small q hq
        show (q.data.length + 15) / 16 + (q.ct.length + 15) / 16 + 1 ≤ n
        rw [k3, k4]
        exact this
    · rw [Set.not_nonempty_iff_eq_empty] at hne
      rw [hne]
      simp
  rej F ct nonce data t buffer hb := by
    show Model.Gcm.decrypt oracle m F ct nonce data t buffer = _ ∨ ∃ out, Model.Gcm.decrypt oracle m F ct nonce data t buffer = _
    unfold gcmReject
    by_cases hp : Proofs.Gcm.Permitted ct nonce data buffer
    · rw [if_pos hp, Proofs.Gcm.decrypt_eq oracle F _ (fun _ _ => rfl) (oracle_length F) m _ _ _ _ _ hp]
      by_cases ht : t = Spec.Gcm.tag (oracle.permute F) nonce data ct
      · rw [if_pos ht, if_pos (Or.inr (by unfold authCount at hb; omega))]
        exact Or.inr ⟨_, rfl⟩
      · rw [if_neg ht]
        exact Or.inl rfl
    · rw [if_neg hp, Proofs.Gcm.decrypt_none oracle F m _ _ _ _ _ hp]
      exact Or.inl rfl

instance : Nonempty BlockFunction := ⟨fun _ => 0⟩

/-- C89. Forgery. An adversary that encrypts as often as it likes under fresh nonces and calls `decrypt` at most `a` times, choosing
each call after seeing the earlier answers, with at most `n` blocks per call, gets `decrypt` to accept something that was not
returned by `encrypt` with probability at most `a n / 2^128` over the choice of the block function. -/
theorem C89_gcm_adaptive_forgery (m : Mode) (A : Adversary) (a n : Nat) (hn : n ≤ 2 ^ 32 - 3) (hA : Within authCount n A a)
    (right : Bool) : prob (fun F => forges (gcmScheme oracle m) right F A []) ≤ a * n / 2 ^ 128 := by
  have := prob_forges (gcm_good m hn) (by norm_num) right A a hA
  push_cast at this
  exact this

/-- C89. Confidentiality. Such an adversary, naming two messages of equal length for each encryption, tells which of the two is
encrypted with advantage at most `2 a n / 2^128`; if it does not call `decrypt` (`a = 0`), with none. -/
theorem C89_gcm_adaptive_confidentiality (m : Mode) (A : Adversary) (a n : Nat) (hn : n ≤ 2 ^ 32 - 3) (hA : Within authCount n A a) :
    |prob (fun F => play (gcmScheme oracle m) false F A [] = true) - prob (fun F => play (gcmScheme oracle m) true F A [] = true)| ≤
      2 * (a * n / 2 ^ 128) := by
  have := prob_play (gcm_good m hn) (by norm_num) A a hA
  push_cast at this
  exact this

/-- An adversary that encrypts one of two messages and then presents the ciphertext with its last bit changed, and the guess is
whether that was accepted. -/
def flipLastBit : Adversary :=
  .encrypt (zeros 12) [1, 2, 3] (List.replicate 20 0) (List.replicate 20 1) (zeros 20) fun r =>
    match r with
    | none => .stop false
    | some (ct, t) => .decrypt (zeros 12) [1, 2, 3] (xorBytes (ct.take 20) (zeros 19 ++ [1])) t (zeros 20) fun r =>
      .stop (r.isSome && (r.map Prod.snd == some true))

theorem flipLastBit_within : Within authCount 4 flipLastBit 1 := by
  refine ⟨by decide, fun r => ?_⟩
  match r with
  | none => trivial
  | some (ct, t) =>
    refine ⟨?_, 0, rfl, fun _ => trivial⟩
    have h : (xorBytes (ct.take 20) (zeros 19 ++ [1])).length ≤ 20 := by simp
    show (3 + 15) / 16 + (_ + 15) / 16 + 1 ≤ 4
    omega

/-- The theorem applies to it. -/
example : prob (fun F => forges (gcmScheme oracle .debug) true F flipLastBit []) ≤ 4 / 2 ^ 128 := by
  have := C89_gcm_adaptive_forgery .debug flipLastBit 1 4 (by norm_num) flipLastBit_within true
  simpa using this

/-- The encryptions in the game take place. -/
example : prob (fun F => play (gcmScheme oracle .debug) false F (.encrypt (zeros 12) [] [0] [1] [0] fun r => .stop (r.isSome)) [] = true) = 1 := by
  have h : ∀ F : BlockFunction, play (gcmScheme oracle .debug) false F (.encrypt (zeros 12) [] [0] [1] [0] fun r => .stop (r.isSome)) [] = true := by
    intro F
    have e : Model.Gcm.encrypt oracle .debug F [0] (zeros 12) [] [0] = _ :=
      Proofs.Gcm.encrypt_ok oracle _ _ (fun _ _ => rfl) (oracle_length _) .debug _ _ _ _ ⟨by simp, by simp, by simp, by simp⟩
        (Or.inr (by decide))
    simp only [play, gcmScheme, List.map_nil, List.not_mem_nil, false_or, List.length_singleton, ne_eq, not_true_eq_false, if_false,
      Bool.false_eq_true, e, Option.isSome_some]
  unfold prob
  simp only [h, Set.ofPred_true, Set.ncard_univ]
  exact div_self (by exact_mod_cast (Nat.card_pos : 0 < Nat.card BlockFunction).ne')

/-! ## C90 -/

/-- ChaCha20-Poly1305 of the code over a block function. -/
def ccpScheme (m : Mode) : Scheme BlockSource where
  enc G msg nonce data buffer := encryptWith m (setupOf G) msg nonce data buffer
  dec G ct nonce data tag buffer := decryptWith m (setupOf G) ct nonce data tag buffer

/-- The answer of `decrypt` to a wrong tag. -/
def ccpReject (ct nonce _data _tag buffer : Bytes) : Option (Bytes × Bool) :=
  if nonce.length = 12 ∧ buffer.length = ct.length then some (buffer, false) else none

theorem ccp_len {d c n : Nat} (hn : n ≤ 2 ^ 34 - 16) (h : authCount d c ≤ n) : c ≤ 64 * (2 ^ 32 - 4) ∧ d < 2 ^ 64 ∧ c < 2 ^ 64 := by
  unfold authCount at h
  omega

theorem ccp_good (m : Mode) {n : Nat} (hn : n ≤ 2 ^ 34 - 16) :
    Good (ccpScheme m) authCount n (1480 * n) (2 ^ 106) ccpReject where
  hide qs h := by
    let f : Exchange → Choice := fun q => ⟨q.nonce, q.data, q.msg, q.msg'⟩
    obtain ⟨σ, hσ⟩ := C81_ccp_hides_messages (qs.map f) (by rw [List.map_map]; exact h.nodup)
      (by intro q hq; rw [List.mem_map] at hq; obtain ⟨q, hq, rfl⟩ := hq; exact h.len q hq)
      (by
        intro q hq
        rw [List.mem_map] at hq; obtain ⟨q, hq, rfl⟩ := hq
        have := ccp_len hn (h.small q hq)
        show q.msg.length ≤ _
        omega)
    have hσ : ∀ G, ∀ q ∈ qs, encryptWith m (setupOf (σ G)) q.msg' q.nonce q.data q.buffer =
        encryptWith m (setupOf G) q.msg q.nonce q.data q.buffer := fun G q hq =>
      hσ G (f q) (List.mem_map_of_mem hq) m q.buffer
    rw [← Set.ncard_image_of_injective _ σ.injective]
    congr 1
    ext F
    constructor
    · rintro ⟨F, hF, rfl⟩ q hq
      exact (hσ F q hq).trans (hF q hq)
    · intro hF
      refine ⟨σ.symm F, fun q hq => ?_, by simp⟩
      refine (hσ _ q hq).symm.trans ?_
      rw [Equiv.apply_symm_apply]
      exact hF q hq
  panic G G' msg msg' nonce data buffer hl h := by
    have h : encryptWith m (setupOf G) msg nonce data buffer = none := h
    show encryptWith m (setupOf G') msg' nonce data buffer = none
    refine encryptWith_none m G' _ _ _ _ fun hp => ?_
    rw [← hl] at hp
    have := (encryptWith_some m G msg nonce data buffer _ _).mpr ⟨hp.1, hp.2.1, hp.2.2, rfl, rfl⟩
    rw [h] at this
    cases this
  forge right qs h nonce data ct t buffer hb hnew := by
    by_cases hne : (explain (ccpScheme m) right qs).Nonempty
    · obtain ⟨F0, hF0⟩ := hne
      let f : Exchange → Sent := fun q => ⟨q.nonce, q.data, q.sent right, q.buffer, q.ct, q.tag⟩
      have he : explain (ccpScheme m) right qs = ccpExplains m (qs.map f) := by
        ext F
        constructor
        · intro hF q hq
          rw [List.mem_map] at hq; obtain ⟨q, hq, rfl⟩ := hq
          exact hF q hq
        · intro hF q hq
          exact hF (f q) (List.mem_map_of_mem hq)
      have k4 : ∀ q ∈ qs, (q.sent right).length = q.msg.length := by
        intro q hq
        unfold Exchange.sent
        split
        · exact (h.len q hq).symm
        · rfl
      have h2 := C82_ccp_forgery m m (qs.map f) (by rw [List.map_map]; exact h.nodup) ?_ nonce data ct t
        (ccp_len hn hb).2.1 (ccp_len hn hb).2.2 ?_ n hb ?_
      · rw [he]
        refine le_trans (Nat.mul_le_mul_right _ (Set.ncard_le_ncard ?_ (Set.toFinite _))) h2
        rintro F ⟨h3, out, h4⟩
        exact ⟨h3, buffer, out, h4⟩
      · intro q hq
        rw [List.mem_map] at hq; obtain ⟨q, hq, rfl⟩ := hq
        have := ccp_len hn (h.small q hq)
        show (q.sent right).length ≤ _ ∧ q.data.length < _
        rw [k4 q hq]
        omega
      · intro q hq e
        rw [List.mem_map] at hq; obtain ⟨q, hq, rfl⟩ := hq
        exact hnew (List.mem_map.mpr ⟨q, hq, e⟩)
      · intro q hq
        rw [List.mem_map] at hq; obtain ⟨q, hq, rfl⟩ := hq
        obtain ⟨k1, -, -, k2, -⟩ := (encryptWith_some m F0 _ _ _ _ _ _).mp (hF0 q hq)
        have k3 : q.ct.length = (q.sent right).length := by
          rw [k2, cryptWith_length (fun i => (F0 ⟨q.nonce, k1⟩ i).2)]
        have := h.small q hq
        show (q.data.length + 15) / 16 + (q.ct.length + 15) / 16 + 1 ≤ n
        rw [k3, k4 q hq]
        exact this
    · rw [Set.not_nonempty_iff_eq_empty] at hne
      rw [hne]
      simp
  rej G ct nonce data t buffer hb := by
    show decryptWith m (setupOf G) ct nonce data t buffer = _ ∨ ∃ out, decryptWith m (setupOf G) ct nonce data t buffer = _
    unfold ccpReject decryptWith
    by_cases hl : buffer.length = ct.length
    · rw [show (buffer.length == ct.length) = true by simpa using hl, assert_true]
      by_cases hnn : nonce.length = 12
      · rw [setupOf_some hnn, if_pos ⟨hnn, hl⟩]
        simp only [Option.bind_eq_bind, Option.bind_some, poly1305_tagOf]
        rw [C01_verify16 _ _ (by unfold tagOf; simp)]
        simp only [Option.bind_some]
        by_cases ht : tagOf data ct (keyHalves (G ⟨nonce, hnn⟩ 0)) = t
        · right
          rw [if_pos (by simpa using ht), processWith_spec m _ ct buffer hl.symm,
            if_pos (Or.inr (by have := ccp_len hn hb; omega))]
          exact ⟨_, rfl⟩
        · left
          rw [if_neg (by simpa using ht)]
      · left
        unfold setupOf
        rw [dif_neg hnn, if_neg (fun h => hnn h.1)]
        rfl
    · left
      rw [show (buffer.length == ct.length) = false by simpa using hl, if_neg (fun h => hl h.2)]
      rfl

instance : Nonempty BlockSource := ⟨fun _ _ => ⟨zeros 64, by simp⟩⟩

/-- C90. Forgery, as in C89, for ChaCha20-Poly1305 over a random block function: probability at most `1480 a n / 2^106`. -/
theorem C90_ccp_adaptive_forgery (m : Mode) (A : Adversary) (a n : Nat) (hn : n ≤ 2 ^ 34 - 16) (hA : Within authCount n A a)
    (right : Bool) : prob (fun G => forges (ccpScheme m) right G A []) ≤ a * (1480 * n) / 2 ^ 106 := by
  have := prob_forges (ccp_good m hn) (by norm_num) right A a hA
  push_cast at this
  exact this

/-- C90. Confidentiality, as in C89: advantage at most `2960 a n / 2^106`, none without decryptions. -/
theorem C90_ccp_adaptive_confidentiality (m : Mode) (A : Adversary) (a n : Nat) (hn : n ≤ 2 ^ 34 - 16) (hA : Within authCount n A a) :
    |prob (fun G => play (ccpScheme m) false G A [] = true) - prob (fun G => play (ccpScheme m) true G A [] = true)| ≤
      2 * (a * (1480 * n) / 2 ^ 106) := by
  have := prob_play (ccp_good m hn) (by norm_num) A a hA
  push_cast at this
  exact this

example : |prob (fun G => play (ccpScheme .debug) false G flipLastBit [] = true) -
    prob (fun G => play (ccpScheme .debug) true G flipLastBit [] = true)| ≤ 2 * (1 * (1480 * 4) / 2 ^ 106) := by
  have := C90_ccp_adaptive_confidentiality .debug flipLastBit 1 4 (by norm_num) flipLastBit_within
  exact_mod_cast this

/-! ## Further concrete cases -/

example : |prob (fun F => play (gcmScheme oracle .debug) false F flipLastBit [] = true) -
    prob (fun F => play (gcmScheme oracle .debug) true F flipLastBit [] = true)| ≤ 2 * (1 * 4 / 2 ^ 128) := by
  simpa using C89_gcm_adaptive_confidentiality .debug flipLastBit 1 4 (by norm_num) flipLastBit_within

example : prob (fun G => forges (ccpScheme .debug) true G flipLastBit []) ≤ 1 * (1480 * 4) / 2 ^ 106 := by
  simpa using C90_ccp_adaptive_forgery .debug flipLastBit 1 4 (by norm_num) flipLastBit_within true

end CryptoPure.Props
