import Verif.Props.Cases
import Verif.Props.ChaChaPerm
import Verif.Props.ChaChaUsers
import Verif.Props.KeySearch
import Verif.Props.Committing
import Verif.Props.Ratchet
import Verif.Props.EncThenMac
import Verif.Props.Siv
import Verif.Props.TruncatedTag
import Verif.Props.Generator
import Verif.Props.Ed25519Multi
import Verif.Props.KeyPrivacy
import Verif.Props.Commitment
import Verif.Props.Tunnel

/-! # Still more concrete cases

The attackers and inputs of the examples beside the theorems, for the theorems that have none there. Where a theorem has a bound for an advantage among its hypotheses the bound stays a variable: each real
advantage is such a bound. -/

namespace CryptoPure.Props.MoreCases
open CryptoPure.Model Spec.Sha2 Proofs Proofs.HmacSha Switch Distinguisher
open Game (prob)
open Cases (inner_bound)

/-! ## C139, C140, C141: attackers who can compute the rounds or the cipher -/

example := C139_confidentiality .debug invertAndFlip 1 4 4 1 (by norm_num) invertAndFlip_within
example (m : Mode) (key : ChaChaKey) (user : Fin 1000) := C141_confidentiality m (forgeUnder m key user) 1 1 1 1 (by norm_num) (forgeUnder_within m key user)
example (k : AesKind) (m : Mode) (key : AesKey k) (user : Fin 1000) :=
  C140_confidentiality k m (forgeWith k key user) 1 1 2 2 1 (by norm_num) (by norm_num) (forgeWith_limits k key user).1 (forgeWith_limits k key user).2

/-! ## C142: the ratchet -/

example (m : Mode) (P : (Fin 3 → Secret .sha512) → Secret .sha512 → Prop) :=
  C142_forward_secrecy .sha512 m directions (by decide) 1 (by decide) (by decide) _ (by positivity)
    (C122_inner .sha512 (Or.inr rfl) 66 (by decide) 1 zero_le_one fun _ _ _ _ D _ => chainAdvantage_le_one .sha512 D) 3 P

example (m : Mode) (ε : ℚ) (hε) := C142_chacha_confidentiality m directions (by decide) 1 (by decide) (by decide) _ (by positivity) (inner_bound 34 (by decide)) 2 replayWith 1 4
  (by norm_num) replayWith_within ε hε

/-- The keys of AES-256 and of ChaCha20 are both 32 bytes. -/
def replayAes (k : AesKey .aes256) : MultiGame.Adversary 2 := replayWith ⟨k.1, k.2⟩

example (m : Mode) (ε : ℚ) (hε) := C142_aes_confidentiality m directions (by decide) 1 (by decide) (by decide) _ (by positivity) (inner_bound 34 (by decide)) 2 replayAes 1 4
  (by norm_num) (fun k => replayWith_within ⟨k.1, k.2⟩) ε hε
example (m : Mode) (ε : ℚ) (hε) := C142_aes_forgery m directions (by decide) 1 (by decide) (by decide) _ (by positivity) (inner_bound 34 (by decide)) 2 replayAes 1 4
  (by norm_num) (fun k => replayWith_within ⟨k.1, k.2⟩) true ε hε

/-- Two ratchets with the same first key. -/
example (m : Mode) (first : Secret .sha384) (c c' : Fin 11 → Secret .sha384) (r r' : Fin 10 → Secret .sha384) (h : Ratchet .sha384 m directions c r)
    (h' : Ratchet .sha384 m directions c' r') (e : c 0 = first) (e' : c' 0 = first) : r = r' :=
  funext fun j => (C142_no_recovery c c' r r' h h' 0 (e.trans e'.symm)).2 j (Fin.zero_le _)

/-! ## C143: committing encryption -/

example (m : Mode) (ε : ℚ) (hε) := C143_chacha_confidentiality m directions 1 _ (by decide) (by decide) (by decide) (by positivity) (inner_bound 34 (by decide)) withCommitment 1 4
  (by norm_num) withCommitment_within ε hε

def aesCommitment (k : AesKey .aes256) : Game.Adversary := withCommitment ⟨k.1, k.2⟩

theorem aesCommitment_costs (k : AesKey .aes256) : Costs gcmCost (aesCommitment k) 6 := by
  refine ⟨3, by decide, fun r => ?_⟩
  match r with
  | none => trivial
  | some (ct, t) =>
    refine ⟨3 - gcmCost (ct.take 16).length, ?_, fun _ => trivial⟩
    have : (ct.take 16).length ≤ 16 := by rw [List.length_take]; omega
    unfold gcmCost
    omega

example (m : Mode) (ε : ℚ) (hε) := C143_aes_forgery m directions 1 _ (by decide) (by decide) (by decide) (by positivity) (inner_bound 34 (by decide)) aesCommitment 1 4 6
  (by norm_num) (fun k => withCommitment_within ⟨k.1, k.2⟩) aesCommitment_costs true ε hε
example (m : Mode) (ε : ℚ) (hε) := C143_aes_confidentiality m directions 1 _ (by decide) (by decide) (by decide) (by positivity) (inner_bound 34 (by decide)) aesCommitment 1 4 6
  (by norm_num) (fun k => withCommitment_within ⟨k.1, k.2⟩) aesCommitment_costs ε hε

/-- One box opened twice: by the theorem, with the same key and message, unless there is a collision. -/
example (m m' : Mode) : ∃ com ct t, openCommitted ccpAead 32 .sha256 m directions (zeros 32) (zeros 12) [1, 2] com ct t = some (some [3, 4, 5]) ∧
    ∀ key' msg', key'.length = 32 → openCommitted ccpAead 32 .sha256 m' directions key' (zeros 12) [1, 2] com ct t = some (some msg') →
      (zeros 32 = key' ∧ [3, 4, 5] = msg') ∨ HashCollision .sha256 (innerInput .sha256 (zeros 32) (directions 0 ++ [1])) (innerInput .sha256 key' (directions 0 ++ [1])) ∨
        HashCollision .sha256 (outerInput .sha256 (zeros 32) (directions 0 ++ [1])) (outerInput .sha256 key' (directions 0 ++ [1])) := by
  obtain ⟨com, ct, t, h1, -, -, -, h2⟩ := C143_round_trip (ccpAead, 32) (by simp [sessionAeads]) .sha256 m m directions (zeros 32) (zeros 12) [1, 2] [3, 4, 5]
    (by decide) (by decide) (by decide) (by simp) (by decide) (by decide)
  exact ⟨com, ct, t, h2, fun key' msg' hl h => C143_one_message (ccpAead, 32) (by simp [sessionAeads]) .sha256 m m' directions (zeros 32) key' (zeros 12) [1, 2] com ct t [3, 4, 5] msg'
    (by rw [hl]; simp) (by decide) (by decide) h2 h⟩

/-! ## C144, C147, C148: HMAC -/

example (m : Mode) (ε ε' : ℚ) (hε) (hε') := C144_confidentiality .sha256 m 32 18 (by decide) (by norm_num) bitFlipper 1 2 bitFlipper_within.1 bitFlipper_within.2 _ (by positivity)
  (inner_bound 38 (by decide)) ε hε ε' hε'
example (m : Mode) (ε : ℚ) (hε) := Siv.C147_forgery .sha256 m 32 18 (by decide) (by norm_num) Siv.sivAttacker 4 1 Siv.sivAttacker_within true _ (by positivity)
  (inner_bound 26 (by decide)) ε hε
example (m : Mode) (k : HmacKey 32 × ChaChaKey) := Siv.C147_repeats .sha384 m 32 (by decide) k [4] [1, 2, 3] (zeros 3) [7, 8, 9] (by norm_num) (by norm_num) rfl rfl
example (m : Mode) := TruncatedTag.C148_prf .sha256 m 32 3 16 (by decide) (by decide) (by decide) (TruncatedTag.tagFlipper 32) 2 1
  ⟨by decide, fun _ => ⟨by decide, fun _ => trivial⟩⟩ ⟨1, rfl, fun _ => ⟨0, rfl, 0, rfl, fun _ => trivial⟩⟩ _ (by positivity) (inner_bound 3 (by decide))

/-! ## C145: the generator -/

example (m : Mode) (key : ChaChaKey) := C145_bytes m key (![⟨zeros 12, by simp⟩, ⟨1 :: zeros 11, by simp⟩] : Fin 2 → Str 12) 100 (by norm_num)
example (m : Mode) (P : (Fin 1000 → Str 480) → ChaChaKey → Prop) := C145_backtracking m ⟨zeros 12, by simp⟩ 480 (by norm_num) 1000 P

/-! ## C130, C126, C129, C132, C133 -/

example (m : Mode) (η : ℚ) (hη) := HmacMulti.C130_bound .sha256 m 16 1 (by decide) (by decide) (HmacMulti.replay .sha256) 2 1 (Cases.replay_within _) _ (by positivity)
  (inner_bound 1 (by decide)) η hη

theorem exampleRandomNonce_ccp : RandomNonceGame.Costs ccpCost exampleRandomNonce 6 := by
  refine ⟨4, by decide, fun v r => ⟨2, by decide, fun v' r' => ⟨2 - ccpCost ((r.map Prod.fst).getD [] |>.take 1).length, ?_, fun o => trivial⟩⟩⟩
  have : ((r.map Prod.fst).getD [] |>.take 1).length ≤ 1 := by rw [List.length_take]; omega
  unfold ccpCost
  omega

example (m : Mode) (v : Fin 2 → RandomNonceGame.Nonce) := C126_ccp_distinguisher (q := 2) m exampleRandomNonce 6 exampleRandomNonce_ccp true v

/-- Many secrets with one honest key. -/
example (m : Mode) (a : FreshKeys.SecretKey) : ∃ pk, Model.X25519.genPk m a.1 = some pk ∧
    prob (fun sks : Fin 1000 → FreshKeys.SecretKey => ∃ i j, i ≠ j ∧ Model.X25519.dh m pk (sks i).1 = Model.X25519.dh m pk (sks j).1) ≤ 1000 * (1000 - 1) / 2 ^ 251 := by
  obtain ⟨pk, s, h1, h2, h3⟩ := X25519.C55_honest_secret_nonzero m a.1 a.1 a.2 a.2
  have hl : pk.length = 32 := Network.genPk_length m _ _ h1
  have := FreshKeys.C129_secrets_differ m pk hl ⟨a, by rw [h2]; simpa using h3⟩ 1000
  exact ⟨pk, h1, by simpa using this⟩

/-- The first record of a link is delivered. -/
example (m : Mode) (keys : Fin 2 → ChaChaKey) : ∃ ct t, (chachaPoly m).enc (keys 0) [1, 2, 3] (RecordGame.nonce 0) [9] (zeros 3) = some (ct, t) := by
  have h := ((Game.RandomAead.Even.some (RandomAead.ccp_even m (n := 5) (by norm_num)) (fun n i => chachaFunction (keys 0) (n, i)) [1, 2, 3] (RecordGame.nonce 0) [9] (zeros 3) (by decide)
    ⟨by decide +kernel, by simp⟩))
  obtain ⟨ct, t, h, -⟩ := h
  exact ⟨ct, t, by rw [(chachaPoly_eq m (keys 0)).1]; exact h⟩

example (p : Nat) := C133_error .sha256 p directions 32 _ rfl

/-! ## C150, C152 -/

example (m : Mode) (right : Bool) (h : Fin 2) (ks Ts) := KeyPrivacy.C150_ccp_distinguisher m 4 KeyPrivacy.sameKey 8 KeyPrivacy.sameKey_costs.2 right h ks Ts
example (k : AesKind) (m : Mode) (right : Bool) (h : Fin 2) (ks Ts) := KeyPrivacy.C150_gcm_distinguisher k m 4 KeyPrivacy.sameKey 12 KeyPrivacy.sameKey_costs.1 right h ks Ts

example (v : Variant) (m : Mode) := Commitment.C152_lengths v m (zeros 16) [1, 2, 3] (by cases v <;> decide) (by cases v <;> decide)

/-- Some commitments do have two openings: there are more messages than tags. -/
example (v : Variant) (m : Mode) : ∃ M M' c : Bytes, M ≠ M' ∧ v.block + M.length < 2 ^ 61 ∧ v.block + M'.length < 2 ^ 61 ∧
    Hmac.verify v.code m (zeros 16) M c = some true ∧ Hmac.verify v.code m (zeros 16) M' c = some true := by
  obtain ⟨M, M', h1, h2, h3, h4⟩ := pigeonhole (Spec.hmac v.fips v.block (zeros 16)) v.size (fun x => by rw [hmac_inputs, fips_length])
  have hs : v.size ≤ 64 := by cases v <;> decide
  have hb : v.block ≤ 128 := by cases v <;> decide
  refine ⟨M, M', Spec.hmac v.fips v.block (zeros 16) M, h3, by omega, by omega, ?_, ?_⟩
  · rw [C08_verify_iff v m _ M _ (by simp) (by omega)]; simp
  · rw [C08_verify_iff v m _ M' _ (by simp) (by omega), h4]; simp

end CryptoPure.Props.MoreCases
