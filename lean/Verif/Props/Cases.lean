import Verif.Props.Search
import Verif.Props.RandomNonceCode
import Verif.Props.PanicLengths
import Verif.Props.HmacMulti
import Verif.Props.StreamReduction
import Verif.Props.FreshKeys
import Verif.Props.Ed25519Own

/-! # More concrete cases

The attackers and inputs of the examples beside the theorems, for the theorems that have none there. -/

namespace CryptoPure.Props.Cases
open CryptoPure.Model Spec.Sha2 Proofs Proofs.HmacSha Switch
open Game (prob)

/-! ## C110 -/

example (m : Mode) (P : ChannelGame.Outcome → Prop) :=
  C110_channel .sha256 m [1] [2] (by decide) (by decide) 32 (by decide) (fun _ => by decide) (aeadScheme ccpAead m) false flipOnChannel authCount 4 1 1
    flipOnChannel_within P

example (m : Mode) := C110_chacha_confidentiality .sha256 m [1] [2] (by decide) (by decide) flipOnChannel 4 1 1 (by norm_num) flipOnChannel_within

example (m : Mode) :=
  C110_gcm_confidentiality .sha256 m [1] [2] (by decide) (by decide) Aes.Aes192 24 (by decide) flipOnChannel 4 1 1 (by norm_num) flipOnChannel_within

/-! ## C119, C126: random nonces -/

example (m : Mode) := C119_gcm_confidentiality m exampleRandomNonce 1 2 2 (by decide) exampleRandomNonce_within
example (m : Mode) := C119_gcm_forgery m exampleRandomNonce 1 2 2 (by decide) exampleRandomNonce_within true
example (m : Mode) := C119_ccp_confidentiality m exampleRandomNonce 1 2 2 (by decide) exampleRandomNonce_within
example (m : Mode) := C119_ccp_forgery m exampleRandomNonce 1 2 2 (by decide) exampleRandomNonce_within false

example (m : Mode) := C119_confidentiality (gcmScheme oracle m) authCount 2 1 2 _
  (fun A hA => C89_gcm_adaptive_confidentiality m A 1 2 (by decide) hA) exampleRandomNonce exampleRandomNonce_within
example (m : Mode) := C119_forgery (gcmScheme oracle m) authCount 2 1 2 _ true
  (fun A hA => C89_gcm_adaptive_forgery m A 1 2 (by decide) hA true) exampleRandomNonce exampleRandomNonce_within

example (k : AesKind) (m : Mode) := C126_gcm_confidentiality (q := 2) k m exampleRandomNonce 1 2 9 (by decide) exampleRandomNonce_within exampleRandomNonce_costs
example (m : Mode) := C126_ccp_forgery (q := 2) m exampleRandomNonce 1 2 (by decide) exampleRandomNonce_within true
example (m : Mode) := C126_ccp_confidentiality (q := 2) m exampleRandomNonce 1 2 (by decide) exampleRandomNonce_within

/-! ## C120, C121, C125 -/

example (m : Mode) (right : Bool) := C120_gcm_distinguisher m flipLastBit 8 flipLastBit_costs.1 right
example (k : AesKind) (m : Mode) := C120_gcm_confidentiality k m flipLastBit 1 4 8 (by norm_num) flipLastBit_within flipLastBit_costs.1
example (m : Mode) (right : Bool) := C120_ccp_distinguisher m flipLastBit 4 flipLastBit_costs.2 right
example (m : Mode) := C120_ccp_confidentiality m flipLastBit 1 4 (by norm_num) flipLastBit_within
example (k : AesKind) (m : Mode) (right : Bool) (key : AesKey k) := C120_gcm_runs k m flipLastBit right key
example (m : Mode) (right : Bool) (key : ChaChaKey) := C120_ccp_runs m flipLastBit right key

example (m : Mode) := C121_gcm_forgery m crossUser 1 3 (by norm_num) crossUser_within true
example (m : Mode) := C121_gcm_confidentiality m crossUser 1 3 (by norm_num) crossUser_within
example (m : Mode) := C121_ccp_confidentiality m crossUser 1 3 (by norm_num) crossUser_within
example (k : AesKind) (m : Mode) := C121_aes_confidentiality k m crossUser 1 3 (by norm_num) crossUser_within
example (m : Mode) := C121_chacha_forgery m crossUser 1 3 (by norm_num) crossUser_within true
example (m : Mode) := C121_chacha_confidentiality m crossUser 1 3 (by norm_num) crossUser_within
example (k : AesKind) (m : Mode) (keys : Fin 2 → AesKey k) := C121_gcm_distinguisher k m crossUser true 8 crossUser_costs.1 keys

theorem crossUser_ccp : MultiGame.Costs ccpCost crossUser 4 := by
  refine ⟨2, by decide, fun r => ?_⟩
  match r with
  | none => trivial
  | some (ct, t) =>
    have h : (ct.take 20).length ≤ 20 := by simp
    refine ⟨2 - ccpCost (ct.take 20).length, ?_, fun _ => trivial⟩
    unfold ccpCost
    omega

example (m : Mode) (keys : Fin 2 → ChaChaKey) := C121_ccp_distinguisher m crossUser true 4 crossUser_ccp keys

example (k : AesKind) (m : Mode) := C125_switch k m crossUser 8 4 (by norm_num) crossUser_costs.1 crossUser_costs.2 true
example (k : AesKind) (m : Mode) := C125_confidentiality k m crossUser 1 3 8 4 (by norm_num) crossUser_within (by norm_num) crossUser_costs.1 crossUser_costs.2

/-! ## C122, C123, C124, C125: one is always a bound for the advantage -/

theorem inner_bound (N : Nat) (hN : Variant.sha256.block + N < 2 ^ 61) : ∀ M M' : Bytes, M.length ≤ N → M'.length ≤ N → M ≠ M' →
    innerCollision .sha256 M M' ≤ (Variant.sha256.blocks N + 1) * 1 + 1 / 256 ^ 32 :=
  C122_inner .sha256 (Or.inl rfl) N hN 1 zero_le_one fun _ _ _ _ D _ => chainAdvantage_le_one .sha256 D

example (m : Mode) (key : Bytes) (hk : key.length = 40) := C122_runs .sha256 m 1 (by decide) tryOne tryOne_uses.1 key (by rw [hk]; decide)
example (m : Mode) := C122_prf .sha256 m 32 1 (by decide) (by decide) tryOne 2 1 tryOne_uses.1 tryOne_uses.2 _ (by positivity) (inner_bound 1 (by decide))
example := C122_asks .sha256 tryOne 2 1 tryOne_uses.2
example := C122_collision .sha256 (Or.inl rfl) [] [1] (by decide) (by decide) (by decide)
example := C122_collision .sha512 (Or.inr rfl) [2] [1] (by decide) (by decide) (by decide)

example (m : Mode) (prk : Bytes) (h : prk.length = 32) :=
  C123_runs .sha256 m prk 1 42 (by rw [h]; decide) (by rw [h]; decide) (by decide) (by decide) (fun _ => by decide) tryKey 1 3 tryKey_tags
example (m : Mode) := C123_expand_prf .sha256 m 32 1 42 (by decide) (by decide) (by decide) (by decide) (fun _ => by decide) tryKey 1 3 tryKey_tags _
  (by positivity) (inner_bound 34 (by decide))

example (m : Mode) (P : (Fin 2 → {k : Bytes // k.length = 16}) → Prop) :=
  C124_session_keys .sha256 m 32 1 (by decide) (by decide) (by decide) (by decide) (fun _ => by decide) directions directions_inj (by decide) P _
    (by positivity) (inner_bound 34 (by decide)) 2 rfl
example (m : Mode) := C124_aes_confidentiality .aes128 .sha256 m 32 1 (by decide) (by decide) (by decide) directions directions_inj (by decide) _
  (by positivity) (inner_bound 34 (by decide)) 2 rfl crossUser 1 3 (by norm_num) crossUser_within
example (m : Mode) := C124_chacha_forgery .sha256 m 32 1 (by decide) (by decide) (by decide) directions directions_inj (by decide) _
  (by positivity) (inner_bound 34 (by decide)) 2 rfl crossUser 1 3 (by norm_num) crossUser_within true
example (m : Mode) := C124_chacha_confidentiality .sha256 m 32 1 (by decide) (by decide) (by decide) directions directions_inj (by decide) _
  (by positivity) (inner_bound 34 (by decide)) 2 rfl crossUser 1 3 (by norm_num) crossUser_within
example (m : Mode) := C125_derived_forgery .aes256 .sha256 m 32 1 (by decide) (by decide) (by decide) directions directions_inj (by decide) _
  (by positivity) (inner_bound 34 (by decide)) 2 rfl crossUser 1 3 8 4 (by norm_num) crossUser_within (by norm_num) crossUser_costs.1 crossUser_costs.2 true

/-! ## C132, C133 -/

example (k : AesKind) (m : Mode) := C132_aes_secrecy k m replayer 2 4 (by norm_num) replayer_within
example (m : Mode) := C132_chacha_secrecy m replayer 2 4 (by norm_num) replayer_within
example (m : Mode) := C132_aes_session_order .aes256 .sha256 m 32 1 (by decide) (by decide) (by decide) directions directions_inj (by decide) _
  (by positivity) (inner_bound 34 (by decide)) 2 rfl replayer 2 4 (by norm_num) replayer_within false
example (m : Mode) := C132_chacha_session_order .sha256 m 32 1 (by decide) (by decide) (by decide) directions directions_inj (by decide) _
  (by positivity) (inner_bound 34 (by decide)) 2 rfl replayer 2 4 (by norm_num) replayer_within false

theorem reflector_costs : RecordGame.Costs gcmCost reflector 8 ∧ RecordGame.Costs ccpCost reflector 4 ∧ RecordGame.CostsEach gcmCost 4 reflector (fun _ => 0) := by
  have h : ∀ ct : Bytes, gcmCost (ct.take 20).length ≤ 4 := by
    intro ct
    have : (ct.take 20).length ≤ 20 := by simp
    unfold gcmCost
    omega
  have h' : ∀ ct : Bytes, ccpCost (ct.take 20).length ≤ 2 := by
    intro ct
    have : (ct.take 20).length ≤ 20 := by simp
    unfold ccpCost
    omega
  refine ⟨⟨4, by decide, fun r => ?_⟩, ⟨2, by decide, fun r => ?_⟩, ⟨by decide, fun r => ?_⟩⟩
  · match r with
    | none => trivial
    | some (ct, t) => exact ⟨4 - gcmCost (ct.take 20).length, by have := h ct; omega, fun _ => trivial⟩
  · match r with
    | none => trivial
    | some (ct, t) => exact ⟨2 - ccpCost (ct.take 20).length, by have := h' ct; omega, fun _ => trivial⟩
  · match r with
    | none => trivial
    | some (ct, t) =>
      refine ⟨?_, fun _ => trivial⟩
      rw [Function.update_of_ne (by decide)]
      simpa using h ct

example (k : AesKind) (m : Mode) := C132_aes_order_perm k m reflector 1 4 8 4 (by norm_num) reflector_within (by norm_num) reflector_costs.1 reflector_costs.2.2 true
example (m : Mode) := C132_work m reflector true 8 4 reflector_costs.1 reflector_costs.2.1

example (m : Mode) (P : TunnelGame.Outcome → Prop) :=
  C133_tunnel (len := 32) .sha256 m [1] directions directions_inj (by decide) 1 (fun _ => le_refl _) (by decide) (by decide) (fun _ => by decide)
    (chachaPoly m) false reflectOnTunnel authCount 4 1 1 reflectOnTunnel_within P

/-! ## C127: keys and messages of the same lengths -/

example (m : Mode) (A : AeadCipher) (hA : A ∈ aeads) (key ct tag out tag' : Bytes) (hk : key.length = 32) (hc : ct.length = 9) (ho : out.length = 9) :=
  C127_decrypt A hA m key ct (zeros 12) [] tag out (zeros 32) (zeros 9) (zeros 12) [] tag' (zeros 9) (by simp [SameLengths, hk, hc, ho])
    (.inr (.inl (by rw [hc]; norm_num)))

example (m : Mode) (key : Bytes) (s s' : ChaCha20.Stream) (h1 : ChaCha20.Stream.new key (zeros 12) = some s)
    (h2 : ChaCha20.Stream.new (zeros 32) (zeros 12) = some s') (x y : Bytes) (h : x.length = y.length) :=
  C127_stream m key (zeros 12) (zeros 32) (zeros 12) s s' h1 h2 [.next, .crypt x x, .next] [.next, .crypt y y, .next] (by simp [StreamUse.lengths, h])

example (key : Bytes) (hk : key.length = 32) := C127_stream_new key (zeros 12) (zeros 32) (zeros 12) (by simp [SameLengths, hk])

example (v : Variant) (m : Mode) (x : Bytes) (hx : x.length = 3) := C127_hash v m [x, [1]] [zeros 3, [2]] (zeros 32) (zeros 32) (by simp [SameLengths, hx]) rfl
  (by simp [hx])

example (v : Variant) (m : Mode) (k x : Bytes) (hk : k.length = 20) (hx : x.length = 3) :=
  C127_hmac v m k (zeros 20) [x, [1]] [zeros 3, [2]] (by rw [hk]; norm_num) (by simp [hx]) (by simp [SameLengths, hx, hk])

example (v : Variant) (m : Mode) (k x t t' : Bytes) (hk : k.length = 20) (hx : x.length = 3) :=
  C127_hmac_verify v m k x t (zeros 20) (zeros 3) t' (by rw [hk]; norm_num) (by rw [hx]; norm_num) (by simp [SameLengths, hx, hk])

example (v : Variant) (m : Mode) (k x : Bytes) (hk : k.length = 20) (hx : x.length = 3) :=
  C127_hkdf v m k x (zeros 32) x (zeros 9) (zeros 20) (zeros 3) (zeros 32) (zeros 3) (zeros 9) (by simp [SameLengths, hx, hk]) (by simp [hx, hk])

example (m : Mode) (pk sk : Bytes) (hp : pk.length = 32) (hs : sk.length = 31) := C127_x25519 m pk sk (zeros 32) (zeros 31) (by simp [SameLengths, hp, hs])

example (m : Mode) (sk : Bytes) (hs : sk.length = 31) := C127_ed25519 m [1] sk [2] (zeros 31) (by simp [SameLengths, hs]) (by simp)

example (m : Mode) (pk sig sig' : Bytes) (hp : pk.length = 32) := C127_ed25519_verify m [1] sig pk [2] sig' (zeros 32) (by simp [SameLengths, hp]) (by simp)
  (.inr (.inl (by simp)))

/-! ## C130 -/

theorem replay_within (v : Variant) : (HmacMulti.replay v).Within 1 2 1 := ⟨by decide, 1, rfl, fun _ => ⟨by decide, 0, rfl, 0, rfl, fun _ => trivial⟩⟩

example (m : Mode) := HmacMulti.C130_unforgeable .sha256 m 16 1 (by decide) (by decide) (HmacMulti.replay .sha256) 2 1 (replay_within _) _ (by positivity)
  (inner_bound 1 (by decide))

example (m : Mode) (i : Fin 2) (keys : Fin 2 → HmacMulti.Key 16) := HmacMulti.C130_asks .sha256 m 1 (HmacMulti.replay .sha256) 2 1 (replay_within _) i keys

/-! ## C117, C129, C131 -/

example (m : Mode) := C117_hides m exampleAdversary
example (m : Mode) (key : Bytes) (hk : key.length = 32) := C117_code_game m true key hk exampleAdversary
example (m : Mode) := C131_confidentiality m exampleAdversary
example (m : Mode) (key : ChaChaKey) := C131_runs m true exampleAdversary key

/-- A stream, one ciphertext, one bit of it changed. -/
example (m : Mode) (s : ChaCha20.Stream) := C117_malleable m s [1, 2, 3] [0, 0, 1] (zeros 3) rfl

/-- The same key and nonce for two messages. -/
example : ∃ s c c' s1 s2, ChaCha20.Stream.new (zeros 32) (zeros 12) = some s ∧ s.encrypt .release [1, 2] (zeros 2) = some (c, s1) ∧
    s.encrypt .release [3, 4] (zeros 2) = some (c', s2) := by
  obtain ⟨s, hs⟩ : ∃ s, ChaCha20.Stream.new (zeros 32) (zeros 12) = some s := Option.isSome_iff_exists.mp (by decide +kernel)
  have h1 : ((ChaCha20.Stream.new (zeros 32) (zeros 12)).bind fun s => s.encrypt .release [1, 2] (zeros 2)).isSome := by decide +kernel
  have h2 : ((ChaCha20.Stream.new (zeros 32) (zeros 12)).bind fun s => s.encrypt .release [3, 4] (zeros 2)).isSome := by decide +kernel
  rw [hs, Option.bind_some] at h1 h2
  obtain ⟨⟨c, s1⟩, e1⟩ := Option.isSome_iff_exists.mp h1
  obtain ⟨⟨c', s2⟩, e2⟩ := Option.isSome_iff_exists.mp h2
  exact ⟨s, c, c', s1, s2, hs, e1, e2⟩

example (m : Mode) := FreshKeys.C129_secret_unpredictable m (9 :: zeros 31) (5 :: zeros 31) (by simp) (by decide)
example (m : Mode) := FreshKeys.C129_public_key_unpredictable m (5 :: zeros 31)
example (m : Mode) (sk : FreshKeys.SecretKey) := FreshKeys.C129_lower_bound m (9 :: zeros 31) (by simp) sk
example (m : Mode) := FreshKeys.C129_ed25519_keys_differ m 32 (le_refl _) 1000

end CryptoPure.Props.Cases
