import Verif.Props.Signed
import Verif.Props.Network
import Verif.Props.Ed25519Strong
import Verif.Props.Logarithm

/-! # Exhaustive search

The theorems about signatures (C102, C103, C114, C128, C134, C135, C136) bound the chance `ε` of an attacker by the chance of finding a discrete logarithm, once `ε` is
at least some tiny `δ`. There are attackers with `ε = 1`, for which this says that their extractors find logarithms: the one
that searches for the secret scalar. -/

namespace CryptoPure.Props.Search
open Spec.Ed25519 Model.EdWith EdGame CryptoPure.Ed Prog Game
open CryptoPure.Props.Ed25519 Proofs.HmacSha

/-- The scalar with this public key. -/
noncomputable def logarithm (pk : Bytes) : Nat := by
  classical exact if h : ∃ a, encode (smul a B) = pk then h.choose else 0

/-- A signature for the message whose hash with `B` and the public key is `k`. -/
noncomputable def forge (pk k : Bytes) : Bytes := encode B ++ toLE 32 ((1 + leNat k * logarithm pk) % L)

theorem forge_verifies (m : Mode) (H : Bytes → Bytes) (hH : ∀ x, (H x).length = 64) (a : Nat) (M : Bytes) :
    verifyWith m H M (forge (encode (smul a B)) (H (encode B ++ encode (smul a B) ++ M))) (encode (smul a B)) = some true := by
  have h1 : (1 : Nat) • G = G := one_smul _ _
  have h2 : smul 1 B = B := by rw [← coe_smulG, h1]; rfl
  have hex : ∃ b, encode (smul b B) = encode (smul a B) := ⟨a, rfl⟩
  unfold forge
  have hl : logarithm (encode (smul a B)) = hex.choose := by
    unfold logarithm
    rw [dif_pos hex]
  have hs := hex.choose_spec
  rw [hl]
  generalize hex.choose = b at *
  rw [← hs]
  generalize hk : H (encode B ++ encode (smul b B) ++ M) = k
  have hkl : k.length = 64 := by rw [← hk, hH]
  have ht : (encode B ++ toLE 32 ((1 + leNat k * b) % L)).take 32 = encode B := List.take_left' (encode_length _)
  have hd : (encode B ++ toLE 32 ((1 + leNat k * b) % L)).drop 32 = toLE 32 ((1 + leNat k * b) % L) := List.drop_left' (encode_length _)
  refine (verifyWith_congr m H (fun _ => k) M _ (encode (smul b B)) (by rw [ht]; exact hk)).trans ?_
  exact (accepts_iff m b M (encode B ++ toLE 32 ((1 + leNat k * b) % L)) k hkl).mpr (by
    rw [ht, hd, leNat_canon]
    refine ⟨by simp [encode_length], lt_trans (Nat.mod_lt _ L_pos) (by norm_num [L_val]), ?_⟩
    have := simSign_take b 1 k
    rw [simSign_eq, List.take_left' (encode_length _), h2] at this
    exact this)

theorem prob_true {K : Type} [Finite K] [Nonempty K] {P : K → Prop} (h : ∀ k, P k) : prob P = 1 := by
  have e : P = fun _ => True := by funext k; simp [h k]
  rw [e]
  unfold prob
  rw [Set.ofPred_true, Set.ncard_univ]
  exact div_self (by exact_mod_cast Nat.card_pos.ne')

/-- The forger that searches. -/
noncomputable def searcher (pk : Bytes) : Forger := .hash (encode B ++ pk ++ [1]) fun k => .stop [1] (forge pk k)

theorem searcher_within (pk : Bytes) (hpk : pk.length = 32) : (searcher pk).Within 65 1 0 :=
  ⟨by simp [encode_length, hpk], 0, rfl, fun y _ => by simp [Forger.Within]⟩

theorem searcher_wins (m : Mode) (H : Bytes → Bytes) (hH : ∀ x, (H x).length = 64) (az pk : Bytes) (haz : az.length = 64) (hpk : genPkWith m az = some pk)
    (signer : Bytes → Option Bytes) : wins H signer (fun M sig => verifyWith m H M sig pk) (searcher pk) [] := by
  rw [genPkWith_spec m haz] at hpk
  cases hpk
  exact ⟨by simp, forge_verifies m H hH _ [1]⟩

/-- C102 for it. -/
example (m : Mode) (az pk : Bytes) (A : Point) (haz : az.length = 64) (hpk : genPkWith m az = some pk) (hA : Decodes pk A) :
    (1 - 1 / 2 ^ 252 : ℚ) ^ 2 ≤ (1 : Nat) * ((extract m A (searcher pk)).pr (fun r => ∃ z, r = some z ∧ smul z B = A) + 1 / 2 ^ 252) := by
  have hl : pk.length = 32 := by
    have h := hpk
    rw [genPkWith_spec m haz] at h
    cases h
    exact encode_length _
  refine C102_forgery_gives_logarithm m az pk A haz hpk hA 65 (searcher pk) 1 0 (searcher_within pk hl) 1 _ _ (Eq.symm ?_) rfl (by norm_num) (by norm_num)
  have : Nonempty (Keyed 65 64 × Keyed 65 64) := ⟨(fun _ => ⟨zeros 64, by simp⟩, fun _ => ⟨zeros 64, by simp⟩)⟩
  exact prob_true fun F => searcher_wins m _ (ask_length _) az pk haz hpk _

instance (N : Nat) : Nonempty ({sk : Bytes // sk.length = 32} × Keyed N 64) := ⟨(⟨zeros 32, by simp⟩, fun _ => ⟨zeros 64, by simp⟩)⟩

theorem searcher_always (m : Mode) (X : {sk : Bytes // sk.length = 32} × Keyed 65 64) : ∃ pk, genPkH m X.2.ask X.1.1 = some pk ∧
    wins X.2.ask (signH m X.2.ask X.1.1) (fun M sig => verifyWith m X.2.ask M sig pk) (searcher pk) [] :=
  ⟨_, genPkWith_spec m (ask_length _ _), searcher_wins m _ (ask_length _) _ _ (ask_length X.2 X.1.1) (genPkWith_spec m (ask_length _ _)) _⟩

/-- C103. -/
example (m : Mode) : (1 - 3 / 2 ^ 252 : ℚ) ^ 2 ≤ (1 : Nat) * ((logGame m searcher).pr (fun r => ∃ z, r.2 = some z ∧ smul z B = r.1) + 1 / 2 ^ 252) :=
  C103_forgery_gives_logarithm m 65 (by norm_num) searcher 1 0 searcher_within 1 _ _ (prob_true (searcher_always m)).symm rfl (by norm_num) (by norm_num)

/-- C114: also as a forger of a signature that is new but for multiples of `L`. -/
example (m : Mode) : (1 - 3 / 2 ^ 252 : ℚ) ^ 2 ≤ (1 : Nat) * ((logGame m searcher).pr (fun r => ∃ z, r.2 = some z ∧ smul z B = r.1) + 1 / 2 ^ 252) :=
  C114_new_signature_gives_logarithm m 65 (by norm_num) searcher 1 0 searcher_within 1 _ _
    (prob_true fun X => by
      obtain ⟨pk, h, hw⟩ := searcher_always m X
      exact ⟨pk, h, winsStrong_of_wins _ [] hw⟩).symm rfl (by norm_num) (by norm_num)

/-- And in the usual sense, with `S < L`. -/
example (m : Mode) : (1 - 3 / 2 ^ 252 : ℚ) ^ 2 ≤ (1 : Nat) * ((logGame m searcher).pr (fun r => ∃ z, r.2 = some z ∧ smul z B = r.1) + 1 / 2 ^ 252) :=
  C114_strongly_unforgeable m 65 (by norm_num) searcher 1 0 searcher_within 1 _ _
    (prob_true fun X => by
      obtain ⟨pk, h, hw⟩ := searcher_always m X
      refine ⟨pk, h, hw.2, by simp, ?_⟩
      unfold forge
      rw [List.drop_left' (encode_length _), leNat_canon]
      exact Nat.mod_lt _ L_pos).symm rfl (by norm_num) (by norm_num)

/-- For one key. -/
example (m : Mode) (az pk : Bytes) (A : Point) (haz : az.length = 64) (hpk : genPkWith m az = some pk) (hA : Decodes pk A) :
    (1 - 1 / 2 ^ 252 : ℚ) ^ 2 ≤ (1 : Nat) * ((extract m A (searcher pk)).pr (fun r => ∃ z, r = some z ∧ smul z B = A) + 1 / 2 ^ 252) := by
  have hl : pk.length = 32 := by
    have h := hpk
    rw [genPkWith_spec m haz] at h
    cases h
    exact encode_length _
  refine C114_new_signature_one_key m az pk A haz hpk hA 65 (searcher pk) 1 0 (searcher_within pk hl) 1 _ _ (Eq.symm ?_) rfl (by norm_num) (by norm_num)
  have : Nonempty (Keyed 65 64 × Keyed 65 64) := ⟨(fun _ => ⟨zeros 64, by simp⟩, fun _ => ⟨zeros 64, by simp⟩)⟩
  exact prob_true fun F => winsStrong_of_wins _ [] (searcher_wins m _ (ask_length _) az pk haz hpk _)

/-- C128: the one that searches for the scalar of the second of two keys. -/
noncomputable def searchSecond (pks : Fin 2 → Bytes) : MultiEdGame.Forger 2 :=
  .hash (encode B ++ pks 1 ++ [1]) fun k => .stop 1 [1] (forge (pks 1) k)

theorem searchSecond_within (pks : Fin 2 → Bytes) (hpk : ∀ j, (pks j).length = 32) : (searchSecond pks).Within 65 1 0 :=
  ⟨by simp [encode_length, hpk], 0, rfl, fun y _ => by simp [MultiEdGame.Forger.Within]⟩

theorem searchSecond_always (m : Mode) (X : (Fin 2 → Secret) × Keyed 65 64) : ∃ pks : Fin 2 → Bytes, (∀ j, genPkH m X.2.ask (X.1 j).1 = some (pks j)) ∧
    MultiEdGame.wins X.2.ask (fun j => (X.1 j).1) (fun j => signH m X.2.ask (X.1 j).1) (fun j M sig => verifyWith m X.2.ask M sig (pks j)) (searchSecond pks) [] [] :=
  ⟨_, fun j => genPkWith_spec m (ask_length _ _), by simp, by simp, forge_verifies m _ (ask_length _) _ [1]⟩

instance (N u : Nat) : Nonempty ((Fin u → Secret) × Keyed N 64) := ⟨(fun _ => ⟨zeros 32, by simp⟩, fun _ => ⟨zeros 64, by simp⟩)⟩

example (m : Mode) : (1 / (2 : Nat) - 5 / 2 ^ 252 : ℚ) ^ 2 ≤ (3 : Nat) * (averageLog m searchSecond + 1 / 2 ^ 252) :=
  C128_new_message m 65 (by norm_num) (by norm_num) searchSecond 1 0 searchSecond_within 1 _ _ 3 (prob_true (searchSecond_always m)).symm rfl rfl
    (by norm_num) (by norm_num)

example (m : Mode) : (1 / (2 : Nat) - 5 / 2 ^ 252 : ℚ) ^ 2 ≤ (3 : Nat) * (averageLog m searchSecond + 1 / 2 ^ 252) :=
  C128_many_signers m 65 (by norm_num) (by norm_num) searchSecond 1 0 searchSecond_within 1 _ _ 3
    (prob_true fun X => by
      obtain ⟨pks, h, hw⟩ := searchSecond_always m X
      exact ⟨pks, h, winsStrong_of_wins_many _ [] [] hw⟩).symm rfl rfl (by norm_num) (by norm_num)

/-- C134: hand the first party some public key and a signature of the second, made after a search. -/
noncomputable def impostor {w : Nat} (ids own : Fin 2 → Bytes) : SignedGame.Attacker w 2 :=
  .present 0 (zeros 32) fun _ => .hash (encode B ++ (ids 1).take 32 ++ (zeros 32 ++ (own 0).take 32)) fun k => .confirm 0 (forge (ids 1) k) fun r => .stop r

theorem impostor_within (ids own : Fin 2 → Bytes) : (impostor (w := 32) ids own).Within 128 Variant.sha256.block authCount 0 2 0 0 :=
  fun _ => ⟨by simp [encode_length]; omega, 1, rfl, fun _ => ⟨0, rfl, fun _ => trivial⟩⟩

open Signed SignedGame in
theorem impostor_splits (m : Mode) (salt : Bytes) (info : Fin 2 → Bytes) (sender : Fin 2 → Fin 2) {len : Nat} (S : Scheme {k : Bytes // k.length = len})
    (right : Bool) (d : Signers 128) (c : TunnelCoins .sha256) :
    (run (world .sha256 m salt info sender S right d c) (impostor (idKey m d) (kit .sha256 m salt info sender S right c).own) start).split := by
  have h1 := (own_spec .sha256 m salt info sender S right c 0).2
  have h2 := (idKey_spec m d 1).2
  have e : idKey m d 1 = encode (smul (scalarOf (d.2.ask (d.1 1).1)) B) := by
    unfold idKey genPkH
    rw [genPkWith_spec m (ask_length _ _), Option.getD_some]
  have ho : (world .sha256 m salt info sender S right d c).own 0 = (kit .sha256 m salt info sender S right c).own 0 := rfl
  have hv := forge_verifies m d.2.ask (ask_length _) (scalarOf (d.2.ask (d.1 1).1)) (zeros 32 ++ (kit .sha256 m salt info sender S right c).own 0)
  rw [← e] at hv
  unfold impostor
  rw [List.take_of_length_le h1.le, List.take_of_length_le h2.le, run_present _ 0 _ _ _ rfl (by simp), SignedGame.run, SignedGame.run]
  dsimp only
  rw [Function.update_self]
  dsimp only
  rw [if_pos]
  · refine .inl fun ha => ?_
    have := ha 1
    rw [Function.update_of_ne (by decide)] at this
    cases this
  · rw [ho]
    exact hv

/-- It always succeeds. -/
example (m : Mode) : (1 / 2 - 34 / 2 ^ 252 : ℚ) ^ 2 ≤ (8 : Nat) * (Signed.mean (fun c =>
    averageLog m (Signed.forgerOf .sha256 m [1] directions Signed.both (aesGcm .aes256 m) false impostor c)) + 1 / 2 ^ 252) := by
  refine Signed.C134_agreement (N := 128) .sha256 m [1] directions Signed.both (aesGcm .aes256 m) false impostor (by norm_num) authCount 0 2 0 0
    impostor_within 1 _ _ 8 (Eq.symm ?_) rfl rfl (by norm_num) (by norm_num)
  have : Nonempty (TunnelCoins .sha256) := inferInstance
  exact prob_true fun q => impostor_splits m [1] directions Signed.both (aesGcm .aes256 m) false q.1 q.2

/-- C135: the first user opens a session with the second, and gets some public key and a signature of the second, made after a search. -/
noncomputable def impostorNet (sk : Bytes) (ids : Fin 2 → Bytes) : NetGame.Attacker 2 :=
  .join 0 false (ids 1) sk fun pk => .present 0 (zeros 32) fun _ =>
    .hash (encode B ++ (ids 1).take 32 ++ (NetGame.message true (zeros 32) (pk.getD []) (ids 0)).take 97) fun k => .confirm 0 (forge (ids 1) k) fun _ => .stop

theorem impostorNet_within (sk : Bytes) (ids : Fin 2 → Bytes) : (impostorNet sk ids).Within 161 2 1 :=
  fun _ => ⟨0, rfl, fun _ => ⟨by simp [encode_length]; omega, 1, rfl, fun _ => ⟨0, rfl, fun _ => trivial⟩⟩⟩

open Network in
theorem impostorNet_fools (m : Mode) (sk : Bytes) (hsk : sk.length = 32) (d : Users 2 161) : NetGame.fooled (world m d) (impostorNet sk (idKey m d)) [] [] := by
  have h0 := (idKey_spec m d 0).2
  have h1 := (idKey_spec m d 1).2
  obtain ⟨pa, e1, hpa⟩ := genPk_some m sk hsk
  have e : idKey m d 1 = encode (smul (scalarOf (d.2.ask (d.1 1).1)) B) := by
    unfold idKey genPkH
    rw [genPkWith_spec m (ask_length _ _), Option.getD_some]
  have hv := forge_verifies m d.2.ask (ask_length _) (scalarOf (d.2.ask (d.1 1).1)) (NetGame.message true (zeros 32) pa (idKey m d 0))
  rw [← e] at hv
  have hl : (NetGame.message true (zeros 32) pa (idKey m d 0)).length = 97 := message_length (by simp) hpa h0
  have hz : (zeros 32).length = 32 := by simp
  unfold impostorNet
  rw [NetGame.fooled, if_neg (by simpa using h1)]
  simp only [world, e1, List.nil_append]
  rw [NetGame.fooled]
  simp only [List.getElem?_cons_zero, Option.isSome_none, Bool.false_eq_true, false_or, hz, ne_eq, not_true_eq_false, if_false, List.set_cons_zero]
  rw [NetGame.fooled, NetGame.fooled]
  simp only [List.getElem?_cons_zero, Option.getD_some, Bool.not_false]
  rw [List.take_of_length_le h1.le, List.take_of_length_le hl.le, if_pos hv]
  refine .inl ⟨1, rfl, by simp, fun t ht hm => ?_⟩
  rw [List.mem_singleton] at ht
  subst ht
  exact (by decide : (0 : Fin 2) ≠ 1) hm.1

/-- It always succeeds. -/
example (m : Mode) (sk : Bytes) (hsk : sk.length = 32) : (1 / (2 : Nat) - 17 / 2 ^ 252 : ℚ) ^ 2 ≤
    (6 : Nat) * (averageLog m (fun ids => NetGame.forger m (Model.X25519.genPk m) (Model.X25519.dh m) ids (impostorNet sk ids) [] []) + 1 / 2 ^ 252) :=
  have h : (1 : ℚ) = prob fun d : Network.Users 2 161 => NetGame.fooled (Network.world m d) (impostorNet sk (Network.idKey m d)) [] [] :=
    (prob_true (impostorNet_fools m sk hsk)).symm
  Network.C135_agreement m 161 (by norm_num) (impostorNet sk) 2 1 (impostorNet_within sk) 1 _ _ 6 h rfl rfl (by norm_num) (by norm_num)

/-- C136: whoever has the forger that searches finds the logarithm of every point. -/
example (m : Mode) (a : Nat) : (1 - 3 / 2 ^ 252 : ℚ) ^ 2 ≤
    (1 : Nat) * ((2 + 1 / 2 ^ 126) * LogGame.chance (LogGame.shifted (extractor m searcher)) (smul a B) + 1 / 2 ^ 252) :=
  C136_forging m 65 (by norm_num) searcher 1 0 searcher_within 1 _ _ a
    (prob_true fun X => by
      obtain ⟨pk, h, hw⟩ := searcher_always m X
      exact ⟨pk, h, winsStrong_of_wins _ [] hw⟩).symm rfl (by norm_num) (by norm_num)

/-- With two signers. -/
example (m : Mode) (a : Nat) : (1 / (2 : Nat) - 5 / 2 ^ 252 : ℚ) ^ 2 ≤
    (3 : Nat) * ((2 + 1 / 2 ^ 126) * LogGame.chance (LogGame.shifted (extractorMany m searchSecond)) (smul a B) + 1 / 2 ^ 252) :=
  C136_forging_many m 65 (by norm_num) (by norm_num) searchSecond 1 0 searchSecond_within 1 _ _ 3 a
    (prob_true fun X => by
      obtain ⟨pks, h, hw⟩ := searchSecond_always m X
      exact ⟨pks, h, winsStrong_of_wins_many _ [] [] hw⟩).symm rfl rfl (by norm_num) (by norm_num)

/-- In a network. -/
example (m : Mode) (sk : Bytes) (a : Nat) :
    averageLog m (fun ids => NetGame.forger m (Model.X25519.genPk m) (Model.X25519.dh m) ids (impostorNet sk ids) [] []) ≤
      (2 + 1 / 2 ^ 126) * LogGame.chance (LogGame.shifted (extractorMany m fun ids =>
        NetGame.forger m (Model.X25519.genPk m) (Model.X25519.dh m) ids (impostorNet sk ids) [] [])) (smul a B) :=
  C136_average_log m _ a

end CryptoPure.Props.Search
