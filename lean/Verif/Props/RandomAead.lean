import Verif.Spec.RandomAead
import Verif.Proofs.RandomAead
import Verif.Props.Reduction

/-! # C149: the authenticated ciphers look like random bytes -/

namespace CryptoPure.Props.RandomAead
open CryptoPure.Model CryptoPure.Props CryptoPure.Game CryptoPure.Distinguisher CryptoPure.Switch
open CryptoPure.Game.RandomAead (Even Shape)
open Spec.Gcm (bits bytes ghash authBlocks)
open Proofs.GHashUniversal (bits_bytes bytes_bits bits_xor)

/-! ## The ideal cipher -/

theorem random_even (n : Nat) : Even (randomAead (16 * n)) authCount n where
  some T msg nonce data buffer hb hs := by
    have hl : msg.length ≤ 16 * n := by unfold authCount at hb; omega
    have h2 := (T ⟨nonce, hs.1⟩).2
    refine ⟨(T ⟨nonce, hs.1⟩).1.take msg.length, ((T ⟨nonce, hs.1⟩).1.drop msg.length).take 16, ?_, ?_, ?_⟩
    · show dite _ _ _ = _
      rw [dif_pos hs.1, if_pos hs.2]
    · rw [List.length_take, h2]; omega
    · rw [List.length_take, List.length_drop, h2]; omega
  none T msg nonce data buffer hb hs := by
    show dite _ _ _ = _
    by_cases h : nonce.length = 12
    · rw [dif_pos h, if_neg fun h' => hs ⟨h, h'⟩]
    · rw [dif_neg h]
  move msg nonce data buffer c t c' t' hb hs hc ht hc' ht' := by
    classical
    have hl : msg.length ≤ 16 * n := by unfold authCount at hb; omega
    have ho : ∀ T c t, (randomAead (16 * n)).enc T msg nonce data buffer = some (c, t) ↔
        (T ⟨nonce, hs.1⟩).1.take msg.length = c ∧ ((T ⟨nonce, hs.1⟩).1.drop msg.length).take 16 = t := by
      intro T c t
      show dite _ _ _ = _ ↔ _
      rw [dif_pos hs.1, if_pos hs.2, Option.some.injEq, Prod.mk.injEq]
    let φ : RandomBytes (16 * n + 16) → RandomBytes (16 * n + 16) := fun T => Function.update T ⟨nonce, hs.1⟩
      ⟨c' ++ (t' ++ (T ⟨nonce, hs.1⟩).1.drop (msg.length + 16)), by
        rw [List.length_append, List.length_append, List.length_drop, (T ⟨nonce, hs.1⟩).2, hc', ht']; omega⟩
    refine ⟨φ, ?_, ?_⟩
    · intro T hT T' hT' e
      have hT := (ho _ _ _).mp hT
      have hT' := (ho _ _ _).mp hT'
      funext x
      by_cases hx : x = ⟨nonce, hs.1⟩
      · subst hx
        have e1 := congrArg Subtype.val (congrFun e ⟨nonce, hs.1⟩)
        simp only [φ, Function.update_self] at e1
        have e2 := List.append_cancel_left (List.append_cancel_left e1)
        refine Subtype.ext ?_
        rw [← List.take_append_drop msg.length (T _).1, ← List.take_append_drop msg.length (T' _).1, hT.1, hT'.1,
          ← List.take_append_drop 16 ((T _).1.drop _), ← List.take_append_drop 16 ((T' _).1.drop _), hT.2, hT'.2, List.drop_drop, List.drop_drop, e2]
      · have := congrFun e x
        simp only [φ] at this
        rwa [Function.update_of_ne hx, Function.update_of_ne hx] at this
    · intro T hT
      refine ⟨?_, ?_⟩
      · rw [ho]
        simp only [φ, Function.update_self]
        rw [List.take_left' hc', List.drop_left' hc', List.take_left' ht']
        exact ⟨rfl, rfl⟩
      · intro msg₂ nonce₂ data₂ buffer₂ hne
        show dite _ _ _ = dite _ _ _
        by_cases h : nonce₂.length = 12
        · rw [dif_pos h, dif_pos h]
          have : φ T ⟨nonce₂, h⟩ = T ⟨nonce₂, h⟩ := Function.update_of_ne (fun e => hne (congrArg Subtype.val e)) _ _
          rw [this]
        · rw [dif_neg h, dif_neg h]

/-! ## ChaCha20-Poly1305 -/

theorem cryptWith_involutive {P : U32 → Bytes} (hP : ∀ i, (P i).length = 64) (x : Bytes) (i : U32) :
    cryptWith P i (chunks 64 (cryptWith P i (chunks 64 x))) = x := by
  induction hk : x.length using Nat.strongRecOn generalizing x i with
  | _ k ih =>
    subst hk
    by_cases h0 : x = []
    · subst h0; rfl
    · have hpos : 0 < x.length := List.length_pos_iff.mpr h0
      rw [chunks_of_ne_nil (by omega) h0, cryptWith]
      have hne : xorBytes (x.take 64) (P i) ++ cryptWith P (i + 1) (chunks 64 (x.drop 64)) ≠ [] := by
        intro h
        have := congrArg List.length h
        rw [List.length_append, xorBytes_length, hP, List.length_take, List.length_nil] at this
        omega
      have hrest := cryptWith_length hP (x.drop 64) (i + 1)
      rw [chunks_of_ne_nil (by omega) hne, cryptWith]
      by_cases h64 : 64 ≤ x.length
      · rw [List.take_left' (by rw [xorBytes_length, hP, List.length_take]; omega), List.drop_left' (by rw [xorBytes_length, hP, List.length_take]; omega),
          ih (x.drop 64).length (by simp; omega) _ _ rfl, xorBytes_cancel _ _ (by rw [hP, List.length_take]; omega), List.take_append_drop]
      · have hd : x.drop 64 = [] := List.drop_eq_nil_of_le (by omega)
        have hx : x.take 64 = x := List.take_of_length_le (by omega)
        rw [hd, hx]
        have hz : cryptWith P (i + 1) (chunks 64 []) = [] := rfl
        have hlen : (xorBytes x (P i)).length ≤ 64 := by rw [xorBytes_length, hP]; omega
        rw [hz, List.append_nil, List.take_of_length_le hlen, List.drop_eq_nil_of_le hlen, hz, List.append_nil]
        unfold xorBytes
        apply List.ext_getElem
        · simp [hP]; omega
        · intro j h1 h2
          simp [BitVec.xor_assoc]

theorem actKey_inverse (n : {n : Bytes // n.length = 12}) {φ ψ : BitVec 128 × BitVec 128 → BitVec 128 × BitVec 128}
    (h : ∀ p, ψ (φ p) = p) (G : BlockSource) : actKey n ψ (actKey n φ G) = G := by
  funext n' i
  unfold actKey
  by_cases hc : n' = n ∧ i = 0
  · simp only [if_pos hc]
    rw [keyHalves_withHalves, h, withHalves_withHalves, withHalves_keyHalves]
  · simp only [if_neg hc]

/-- The mask changed so that the tag of `(data, c')` is `t'`, if that of `(data, c)` was `t`. -/
noncomputable def adjust (data c c' : Bytes) (t t' : BitVec 128) (p : BitVec 128 × BitVec 128) : BitVec 128 × BitVec 128 :=
  (p.1, p.2 + tagNumber data c p.1 - tagNumber data c' p.1 + (t' - t))

theorem bv_cancel (a b c d e : BitVec 128) : a + b - c + (d - e) + c - b + (e - d) = a := by
  have h1 : d - e = -(e - d) := by rw [BitVec.neg_sub, BitVec.add_comm, BitVec.sub_eq_add_neg]
  rw [h1]
  generalize e - d = y
  rw [BitVec.sub_eq_add_neg, BitVec.sub_eq_add_neg, BitVec.add_assoc _ (-y) c, BitVec.add_comm (-y) c, ← BitVec.add_assoc, BitVec.add_assoc _ (-c) c, BitVec.add_left_neg, BitVec.add_zero,
    BitVec.add_assoc _ (-y), BitVec.add_comm (-y), BitVec.add_assoc _ _ y, BitVec.add_assoc (-b), BitVec.add_left_neg, BitVec.add_zero, BitVec.add_assoc, BitVec.add_right_neg, BitVec.add_zero]

theorem adjust_adjust (data c c' : Bytes) (t t' : BitVec 128) (p) : adjust data c' c t' t (adjust data c c' t t' p) = p := by
  unfold adjust
  refine Prod.ext rfl ?_
  exact bv_cancel _ _ _ _ _

theorem adjust_tag (data c c' t t' : Bytes) (ht' : t'.length = 16) (p) (h : t = tagOf data c p) :
    t' = tagOf data c' (adjust data c c' (BitVec.ofNat 128 (leNat t)) (BitVec.ofNat 128 (leNat t')) p) := by
  have e : BitVec.ofNat 128 (leNat t) = tagNumber data c p.1 + p.2 := by
    rw [h]
    unfold tagOf
    exact ofNat_leNat_toLE _
  have e' : tagNumber data c' p.1 + (p.2 + tagNumber data c p.1 - tagNumber data c' p.1 + (BitVec.ofNat 128 (leNat t') - (tagNumber data c p.1 + p.2))) =
      BitVec.ofNat 128 (leNat t') := by
    generalize tagNumber data c p.1 = x
    generalize tagNumber data c' p.1 = y
    generalize p.2 = z
    generalize BitVec.ofNat 128 (leNat t') = w
    rw [BitVec.add_comm z x, ← BitVec.add_assoc, BitVec.add_comm y, BitVec.sub_add_cancel, BitVec.add_comm, BitVec.sub_add_cancel]
  unfold tagOf adjust
  simp only
  rw [e, e', toLE_ofNat16 _ ht']

theorem ccp_even (m : Mode) {n : Nat} (hn : n ≤ 2 ^ 34 - 16) : Even (ccpScheme m) authCount n where
  some G msg nonce data buffer hb hs := by
    have hl := ccp_len hn hb
    refine ⟨_, _, (encryptWith_some m G msg nonce data buffer _ _).mpr ⟨hs.1, hs.2.symm, Or.inr (by omega), rfl, rfl⟩, ?_, ?_⟩
    · exact cryptWith_length (fun i => (G ⟨nonce, hs.1⟩ i).2) _ _
    · unfold tagOf; simp
  none G msg nonce data buffer hb hs := encryptWith_none m G _ _ _ _ fun h => hs ⟨h.1, h.2.1.symm⟩
  move msg nonce data buffer c t c' t' hb hs hc ht hc' ht' := by
    have hl := ccp_len hn hb
    obtain ⟨hn12, hbuf⟩ := hs
    let q : Choice := ⟨nonce, data, c, c'⟩
    let f := adjust data c c' (BitVec.ofNat 128 (leNat t)) (BitVec.ofNat 128 (leNat t'))
    let g := adjust data c' c (BitVec.ofNat 128 (leNat t')) (BitVec.ofNat 128 (leNat t))
    have hgf : ∀ p, g (f p) = p := fun p => adjust_adjust ..
    refine ⟨fun G => actKey ⟨nonce, hn12⟩ f (maskOne q G), ?_, ?_⟩
    · intro G _ G' _ e
      have e : actKey ⟨nonce, hn12⟩ f (maskOne q G) = actKey ⟨nonce, hn12⟩ f (maskOne q G') := e
      have e := congrArg (fun G => maskOne q (actKey ⟨nonce, hn12⟩ g G)) e
      simp only [actKey_inverse _ hgf, maskOne_involutive q _] at e
      exact e
    · intro G hG
      obtain ⟨_, h1, h2, h3, h4⟩ := (encryptWith_some m G _ _ _ _ _ _).mp hG
      have hlen : ∀ (G : BlockSource) i, ((fun i => (G ⟨nonce, hn12⟩ i).1) i).length = 64 := fun G i => (G ⟨nonce, hn12⟩ i).2
      have hmsg : msg = cryptWith (fun i => (G ⟨nonce, hn12⟩ i).1) 1 (chunks 64 c) := by
        rw [h3, cryptWith_involutive (hlen G)]
      have hsame := maskOne_same q (by show c.length = c'.length; rw [hc, hc']) (by show c.length ≤ _; rw [hc]; omega) G .release c'
      obtain ⟨ct1, t1, e1⟩ : ∃ ct1 t1, encryptWith .release (setupOf G) q.msg q.nonce q.data c' = some (ct1, t1) :=
        ⟨_, _, (encryptWith_some .release G _ _ _ _ _ _).mpr ⟨hn12, by show c.length = _; rw [hc, hc'], Or.inl rfl, rfl, rfl⟩⟩
      rw [e1] at hsame
      obtain ⟨_, _, _, e2, _⟩ := (encryptWith_some _ _ _ _ _ _ _ _).mp e1
      obtain ⟨_, _, _, e3, _⟩ := (encryptWith_some _ _ _ _ _ _ _ _).mp hsame
      have e4 : cryptWith (fun i => (maskOne q G ⟨nonce, hn12⟩ i).1) 1 (chunks 64 c') = msg := e3.symm.trans (e2.trans hmsg.symm)
      have e5 : cryptWith (fun i => (maskOne q G ⟨nonce, hn12⟩ i).1) 1 (chunks 64 msg) = c' := by
        rw [← e4, cryptWith_involutive (hlen (maskOne q G))]
      have h0 : maskOne q G ⟨nonce, hn12⟩ 0 = G ⟨nonce, hn12⟩ 0 := by
        unfold maskOne
        rw [if_neg fun h => h.2 rfl]
      refine ⟨?_, ?_⟩
      · refine (encryptWith_some m _ _ _ _ _ _ _).mpr ⟨hn12, h1, h2, ?_, ?_⟩
        · rw [actKey_crypt _ _ _ _ (by omega), e5]
        · rw [actKey_halves, h0]
          exact adjust_tag data c c' t t' ht' _ h4
      · intro msg₂ nonce₂ data₂ buffer₂ hne
        refine encryptWith_local m nonce₂ (fun h => ?_) _ _ _
        show actKey _ f (maskOne q G) _ = _
        rw [actKey_other _ _ _ (fun e => hne (congrArg Subtype.val e)), maskOne_other q _ _ hne]

/-- **ChaCha20-Poly1305 of the crate looks like random bytes.** Under a random key, an adaptive attack, that encrypts as often as it likes under fresh nonces and calls `decrypt` `a` times, with at most
`n` blocks of 16 bytes in each call, tells the crate from the cipher whose ciphertexts and tags are random bytes and that rejects everything with at most the advantage
of the distinguisher made of it against the ChaCha20 block function, plus `1480 a n / 2^106`. -/
theorem C149_ccp_random (m : Mode) (A : Adversary) (a n : Nat) (hn : n ≤ 2 ^ 34 - 16) (hA : Within authCount n A a) (right : Bool) :
    |prob (fun key => play (chachaPoly m) right key A [] = true) - prob (fun T => play (randomAead (16 * n)) right T A [] = true)| ≤
      chachaAdvantage (chachaFromGuesser m right A) + a * (1480 * n) / 2 ^ 106 := by
  have h1 := CryptoPure.Game.RandomAead.near (ccp_good m hn) (by norm_num) (ccp_even m hn) (random_even n) (fun _ _ _ _ _ _ _ => rfl) right A a hA
  have e1 : prob (fun key => play (chachaPoly m) right key A [] = true) =
      prob (fun key => (chachaFromGuesser m right A).run (chachaFunction key) = true) :=
    prob_congr fun key => by rw [(C120_ccp_runs m A right key).2]
  have e2 : prob (fun G => play (ccpScheme m) right G A [] = true) =
      prob (fun F : ChaChaPoint → ChaChaBlock => (chachaFromGuesser m right A).run F = true) := by
    rw [prob_uncurry]
    refine prob_congr fun G => ?_
    have := guessTest_run (ccp_local m) right (fun x => G x.1 x.2) A []
    rw [show chachaFromGuesser m right A = guessTest (ccpOver m) ccpPoints right A [] from rfl, this]
    rw [play_congr (S := ccpScheme m) (S' := ccpOver m) (k := G) (k' := fun x => G x.1 x.2) rfl rfl]
  rw [e1]
  rw [e2] at h1
  have h2 : |prob (fun key => (chachaFromGuesser m right A).run (chachaFunction key) = true) -
    prob (fun F : ChaChaPoint → ChaChaBlock => (chachaFromGuesser m right A).run F = true)| ≤
      chachaAdvantage (chachaFromGuesser m right A) := le_refl _
  push_cast at h1
  have h3 := abs_le.mp h1
  have h4 := abs_le.mp h2
  rw [abs_le]
  constructor <;> linarith [h3.1, h3.2, h4.1, h4.2]

/-! ## AES-GCM -/

theorem gcm_crypt_involutive (F : BlockFunction) {nonce : Bytes} (hn : nonce.length = 12) (x : Bytes) :
    Spec.Gcm.crypt (oracle.permute F) nonce (Spec.Gcm.crypt (oracle.permute F) nonce x) = x := by
  have hl := Proofs.Gcm.crypt_length _ (oracle_length F) nonce hn x
  have h1 : ∀ y, Spec.Gcm.crypt (oracle.permute F) nonce y =
      xorBytes y (((List.range ((y.length + 15) / 16)).map (fun j => oracle.permute F (nonce ++ toBE 4 (j + 2)))).flatten) := fun y => by
    unfold Spec.Gcm.crypt Spec.Gcm.gctr
    rw [Proofs.Gcm.J0_eq, Proofs.Gcm.inc32_ctr _ hn]
    exact Proofs.Gcm.gctrBlocks_xor _ (oracle_length F) nonce hn y 2
  rw [h1 (Spec.Gcm.crypt (oracle.permute F) nonce x), hl]
  have h2 := h1 x
  rw [h2] at hl ⊢
  rw [xorBytes_length] at hl
  exact xorBytes_cancel _ _ (by omega)

/-- The keystream changed from `c` to `c'`, and the mask so that the tag changes by `δ`. -/
def turn (nonce data c c' : Bytes) (δ : BitVec 128) (F : BlockFunction) : BlockFunction := fun x =>
  F x ^^^ delta ⟨nonce, data, c, c'⟩ x ^^^
    if x = bits (Spec.Gcm.J0 nonce) then ghash (F (bits (zeros 16))) (authBlocks data c) ^^^ ghash (F (bits (zeros 16))) (authBlocks data c') ^^^ δ else 0

theorem xor_zero' (x : BitVec 128) : x ^^^ (0 : BitVec 128) = x := BitVec.xor_zero

theorem J0_ne_zero {nonce : Bytes} (hn : nonce.length = 12) : bits (zeros 16) ≠ bits (Spec.Gcm.J0 nonce) := by
  intro h
  rw [Proofs.Gcm.J0_eq, zeros_ctr] at h
  have := (bits_ctr_inj (by simp) hn (by norm_num) (by norm_num) h).2
  omega

theorem turn_zero {nonce : Bytes} (hn : nonce.length = 12) (data c c' : Bytes) (δ : BitVec 128) (F : BlockFunction) :
    turn nonce data c c' δ F (bits (zeros 16)) = F (bits (zeros 16)) := by
  unfold turn
  rw [if_neg (J0_ne_zero hn), delta_zero]
  simp

theorem turn_involutive {nonce : Bytes} (hn : nonce.length = 12) (data c c' : Bytes) (δ : BitVec 128) : Function.Involutive (turn nonce data c c' δ) := by
  intro F
  funext x
  have h0 := turn_zero hn data c c' δ F
  show turn nonce data c c' δ F x ^^^ _ ^^^ _ = _
  rw [h0]
  unfold turn
  generalize (if x = bits (Spec.Gcm.J0 nonce) then _ else (0 : BitVec 128)) = y
  generalize delta _ x = z
  rw [BitVec.xor_assoc (F x), BitVec.xor_assoc, BitVec.xor_assoc, ← BitVec.xor_assoc (z ^^^ y) z y, BitVec.xor_assoc z y z, BitVec.xor_comm y z]
  rw [← BitVec.xor_assoc z z y, BitVec.xor_self]
  simp

theorem gcm_even (m : Mode) {n : Nat} (hn : n ≤ 2 ^ 32 - 3) : Even (gcmScheme oracle m) authCount n where
  some F msg nonce data buffer hb hs := by
    unfold authCount at hb
    refine ⟨_, _, Proofs.Gcm.encrypt_ok oracle F _ (fun _ _ => rfl) (oracle_length F) m _ _ _ _ ⟨hs.1, hs.2.symm, by omega, by omega⟩ (Or.inr (by omega)), ?_, ?_⟩
    · exact Proofs.Gcm.crypt_length _ (oracle_length F) _ hs.1 _
    · exact tag_length _ (oracle_length F) _ _ _ hs.1
  none F msg nonce data buffer hb hs := Proofs.Gcm.encrypt_none oracle F _ (fun _ _ => rfl) m _ _ _ _ fun h => hs ⟨h.1.1, h.1.2.1.symm⟩
  move msg nonce data buffer c t c' t' hb hs hc ht hc' ht' := by
    unfold authCount at hb
    let δ := bits t ^^^ bits t'
    refine ⟨turn nonce data c c' δ, (turn_involutive hs.1 _ _ _ _).injective.injOn, ?_⟩
    intro F hF
    have hF : Model.Gcm.encrypt oracle m F msg nonce data buffer = some (c, t) := hF
    have hp : Proofs.Gcm.Permitted msg nonce data buffer := ⟨hs.1, hs.2.symm, by omega, by omega⟩
    have hm : m = .release ∨ (msg.length + 15) / 16 ≤ 2 ^ 32 - 4 := Or.inr (by omega)
    have hok := fun F => Proofs.Gcm.encrypt_ok oracle F _ (fun _ _ => rfl) (oracle_length F) m _ _ _ _ hp hm
    have h0 := hF
    rw [hok F, Option.some.injEq, Prod.mk.injEq] at h0
    obtain ⟨h3, h4⟩ := h0
    have hz := turn_zero hs.1 data c c' δ F
    have hctr : ∀ k, 2 ≤ k → k < 2 ^ 32 → turn nonce data c c' δ F (bits (nonce ++ toBE 4 k)) =
        F (bits (nonce ++ toBE 4 k)) ^^^ delta ⟨nonce, data, c, c'⟩ (bits (nonce ++ toBE 4 k)) := by
      intro k h2 hk
      unfold turn
      rw [if_neg, xor_zero']
      intro h
      rw [Proofs.Gcm.J0_eq] at h
      have := (bits_ctr_inj hs.1 hs.1 hk (by norm_num) h).2
      omega
    have hsame := delta_same ⟨nonce, data, c, c'⟩ (by show c.length = c'.length; rw [hc, hc']) F .release buffer
    have hpc : Proofs.Gcm.Permitted c nonce data buffer := ⟨hs.1, by rw [hc]; exact hs.2.symm, by omega, by omega⟩
    have hpc' : Proofs.Gcm.Permitted c' nonce data buffer := ⟨hs.1, by rw [hc']; exact hs.2.symm, by omega, by omega⟩
    have hsame : Model.Gcm.encrypt oracle .release (fun x => F x ^^^ delta ⟨nonce, data, c, c'⟩ x) c' nonce data buffer =
      Model.Gcm.encrypt oracle .release F c nonce data buffer := hsame
    rw [Proofs.Gcm.encrypt_ok oracle F _ (fun _ _ => rfl) (oracle_length F) .release _ _ _ _ hpc (Or.inl rfl),
      Proofs.Gcm.encrypt_ok oracle _ _ (fun _ _ => rfl) (oracle_length (fun x => F x ^^^ delta ⟨nonce, data, c, c'⟩ x)) .release _ _ _ _ hpc' (Or.inl rfl),
      Option.some.injEq, Prod.mk.injEq] at hsame
    have e4 : Spec.Gcm.crypt (oracle.permute (turn nonce data c c' δ F)) nonce c' = msg := by
      have : Spec.Gcm.crypt (oracle.permute F) nonce c = msg := by rw [← h3, gcm_crypt_involutive F hs.1]
      rw [← this, ← hsame.1]
      refine crypt_congr hs.1 _ _ rfl fun j hj => ?_
      show xorBytes _ (bytes (turn nonce data c c' δ F _)) = xorBytes _ (bytes (F _ ^^^ _))
      rw [hctr (2 + j) (by omega) (by omega)]
    have e5 : Spec.Gcm.crypt (oracle.permute (turn nonce data c c' δ F)) nonce msg = c' := by
      rw [← e4, gcm_crypt_involutive _ hs.1]
    refine ⟨?_, ?_⟩
    · show Model.Gcm.encrypt oracle m _ msg nonce data buffer = _
      rw [hok, e5]
      refine congrArg some (congrArg (Prod.mk c') ?_)
      refine bits_inj' (tag_length _ (oracle_length _) _ _ _ hs.1) ht' ?_
      rw [h3] at h4
      have hb := congrArg bits h4
      rw [bits_tag' F _ _ _ hs.1] at hb
      rw [bits_tag' _ _ _ _ hs.1, hz]
      have hj : turn nonce data c c' δ F (bits (Spec.Gcm.J0 nonce)) = F (bits (Spec.Gcm.J0 nonce)) ^^^
          (ghash (F (bits (zeros 16))) (authBlocks data c) ^^^ ghash (F (bits (zeros 16))) (authBlocks data c') ^^^ δ) := by
        unfold turn
        have hd : delta ⟨nonce, data, c, c'⟩ (bits (Spec.Gcm.J0 nonce)) = 0 := by
          unfold delta
          rw [if_neg]
          rintro ⟨-, h⟩
          rw [Proofs.Gcm.J0_eq, (ctr_parts hs.1 (by norm_num)).2] at h
          omega
        rw [if_pos rfl, hd]
        simp
      rw [hj]
      show _ ^^^ (_ ^^^ (_ ^^^ _ ^^^ (bits t ^^^ bits t'))) = _
      rw [← hb]
      generalize ghash (F (bits (zeros 16))) (authBlocks data c') = x
      generalize ghash (F (bits (zeros 16))) (authBlocks data c) = y
      generalize F (bits (Spec.Gcm.J0 nonce)) = z
      generalize bits t' = w
      have hx : ∀ i, (x ^^^ (z ^^^ (y ^^^ x ^^^ (y ^^^ z ^^^ w)))).getLsbD i = w.getLsbD i := by
        intro i
        simp only [BitVec.getLsbD_xor]
        cases x.getLsbD i <;> cases y.getLsbD i <;> cases z.getLsbD i <;> cases w.getLsbD i <;> rfl
      exact BitVec.eq_of_getLsbD_eq fun i _ => hx i
    · intro msg₂ nonce₂ data₂ buffer₂ hne
      refine encrypt_local nonce₂ hz (fun hn₂ k h1 h2 => ?_) m _ _ _
      unfold turn
      rw [if_neg, delta_other _ hn₂ (fun e => hne e.symm) h2]
      · simp
      · intro h
        rw [Proofs.Gcm.J0_eq] at h
        exact hne (bits_ctr_inj hn₂ hs.1 h2 (by norm_num) h).1

/-- **AES-GCM of the crate looks like random bytes.** The same for AES-GCM, for an attack in which `s` blocks are encrypted with AES: at most the advantage of the distinguisher
made of it in telling AES under a random key from a random permutation, plus `a n / 2^128 + s (s - 1) / 2^129`. -/
theorem C149_gcm_random (k : AesKind) (m : Mode) (A : Adversary) (a n s : Nat) (hn : n ≤ 2 ^ 32 - 3) (hA : Within authCount n A a)
    (hs : Costs gcmCost A s) (right : Bool) :
    |prob (fun key => play (aesGcm k m) right key A [] = true) - prob (fun T => play (randomAead (16 * n)) right T A [] = true)| ≤
      aesAdvantage k (aesFromGuesser m right A) + a * n / 2 ^ 128 + s * (s - 1) / 2 ^ 129 := by
  have hrej : ∀ (T : RandomBytes (16 * n + 16)) (ct nonce data t buffer : Bytes), authCount data.length ct.length ≤ n →
      (randomAead (16 * n)).dec T ct nonce data t buffer = gcmReject ct nonce data t buffer := by
    intro T ct nonce data t buffer hb
    unfold authCount at hb
    show (if _ then _ else _) = _
    unfold gcmReject
    by_cases h : nonce.length = 12 ∧ buffer.length = ct.length
    · rw [if_pos h, if_pos ⟨h.1, h.2.symm, by omega, by omega⟩]
    · rw [if_neg h, if_neg fun hp => h ⟨hp.1, hp.2.1.symm⟩]
  have h1 := CryptoPure.Game.RandomAead.near (gcm_good m hn) (by norm_num) (gcm_even m hn) (random_even n) hrej right A a hA
  have h2 := switch ((play_queries m right A s (costs_blockCalls A s hs) []).map (· = true))
  rw [card_block] at h2
  have e1 : prob (fun key => play (aesGcm k m) right key A [] = true) =
      prob (fun key => (aesFromGuesser m right A).run (aesFunction k key) = true) :=
    prob_congr fun key => by rw [(C120_gcm_runs k m A right key).2]
  have e2 : prob (fun π : Equiv.Perm (BitVec 128) => play (gcmScheme oracle m) right π A [] = true) =
      prob (fun π : Equiv.Perm (BitVec 128) => (aesFromGuesser m right A).run π = true) :=
    prob_congr fun π => by
      rw [← guessTest_run (gcm_local m)]
      rfl
  have e3 : (s * (s - 1) / 2 : ℚ) / ((2 ^ 128 : Nat) : ℚ) = s * (s - 1) / 2 ^ 129 := by
    push_cast; rw [div_div]; norm_num
  rw [e3, e2] at h2
  rw [e1]
  have h3 : |prob (fun key => (aesFromGuesser m right A).run (aesFunction k key) = true) -
    prob (fun π : Equiv.Perm (BitVec 128) => (aesFromGuesser m right A).run π = true)| ≤ aesAdvantage k (aesFromGuesser m right A) := le_refl _
  push_cast at h1
  have h1 := abs_le.mp h1
  have h2 := abs_le.mp h2
  have h3 := abs_le.mp h3
  rw [abs_le]
  constructor <;> linarith [h1.1, h1.2, h2.1, h2.2, h3.1, h3.2]

/-! ## Concrete cases -/

example : |prob (fun key => play (chachaPoly .debug) true key flipLastBit [] = true) - prob (fun T => play (randomAead (16 * 4)) true T flipLastBit [] = true)| ≤
    chachaAdvantage (chachaFromGuesser .debug true flipLastBit) + 1 * (1480 * 4) / 2 ^ 106 := by
  simpa using C149_ccp_random .debug flipLastBit 1 4 (by norm_num) flipLastBit_within true

example : |prob (fun key => play (aesGcm .aes128 .debug) true key flipLastBit [] = true) - prob (fun T => play (randomAead (16 * 4)) true T flipLastBit [] = true)| ≤
    aesAdvantage .aes128 (aesFromGuesser .debug true flipLastBit) + 1 * 4 / 2 ^ 128 + 8 * (8 - 1) / 2 ^ 129 := by
  simpa using C149_gcm_random .aes128 .debug flipLastBit 1 4 8 (by norm_num) flipLastBit_within flipLastBit_costs.1 true

end CryptoPure.Props.RandomAead
