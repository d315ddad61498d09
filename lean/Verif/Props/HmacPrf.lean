import Verif.Proofs.HmacPrf
import Verif.Props.HmacIdeal

/-! # C122: HMAC of the crate is pseudorandom if the compression function is

For the code of src/hmac.rs and src/sha2.rs with its own compression function, under a random key. The programs that test the
compression function are written out in Verif/Spec/HmacTests.lean. -/

namespace CryptoPure.Props
open CryptoPure.Model Spec.Sha2 MacGame Proofs Proofs.HmacSha Proofs.HmacPrf HmacTests Distinguisher
open Game hiding play forges

theorem hmac_prob_congr {K : Type} {P Q : K → Prop} (h : ∀ k, P k ↔ Q k) : prob P = prob Q := by
  unfold prob
  simp only [h]

/-! ## HMAC in terms of chaining values -/

section General
variable {w : Nat} (A : Alg w) (f : Oct w → Bytes → Oct w) (n : Nat)

theorem hashAfter_length (hn : n ≤ 8 * (w / 8)) (H : Oct w) (M : Bytes) : (hashAfter A f n H M).length = n := by
  unfold hashAfter digestBytes
  have := bytesOf_length (hashBlocksF A f H (paddedText A M))
  unfold bytesOf at this
  rw [List.length_take, this]
  omega

theorem digestF_hashAfter (iv : Oct w) (a M : Bytes) (h0 : 0 < A.blockBytes) (ha : a.length = A.blockBytes) :
    digestF A f iv n (a ++ M) = hashAfter A f n (f iv a) M := by
  unfold digestF digestWithF hashAfter digestBytes hashBlocksF paddedText
  have : a ++ M ++ padding A (a ++ M).length (8 * (a ++ M).length) =
      a ++ (M ++ padding A (A.blockBytes + M.length) (8 * (A.blockBytes + M.length))) := by
    rw [List.length_append, ha, List.append_assoc]
  rw [this, chunks_append_block h0 ha, List.foldl_cons]

theorem toBlock_val {B : Nat} {b : Bytes} (h : b.length = B) : (toBlock B b).1 = b := by
  unfold toBlock; rw [dif_pos h]

theorem paddedText_short (hnb : A.lenBytes + 1 + n ≤ A.blockBytes) (d : Bytes) (hd : d.length = n) : (paddedText A d).length = A.blockBytes :=
  (lastBlock A (n := n) ⟨d, hd⟩ hnb).2

/-- The outer hash is one evaluation. -/
theorem hashAfter_short (hnb : A.lenBytes + 1 + n ≤ A.blockBytes) (H : Oct w) (d : Bytes) (hd : d.length = n) :
    hashAfter A f n H d = digestBytes n (chainingKey A f H (toBlock _ (paddedText A d))) := by
  have h := paddedText_short A n hnb d hd
  unfold hashAfter hashBlocksF chainingKey
  rw [toBlock_val h, chunks_singleton (by intro e; rw [e] at h; simp at h; omega) (by omega)]
  rfl

theorem hashAfter_blocks (hb : A.lenBytes + 1 ≤ A.blockBytes) (H : Oct w) (M : Bytes) :
    hashAfter A f n H M = digestBytes n ((textBlocks A M).foldl (chainingKey A f) H) := by
  unfold hashAfter hashBlocksF textBlocks
  rw [List.foldl_map]
  have hm := chunks_mem_length (n := A.blockBytes) (by omega) (padded_length A hb M)
  change ∀ c ∈ chunks A.blockBytes (paddedText A M), _ at hm
  generalize chunks A.blockBytes (paddedText A M) = l at hm
  congr 1
  induction l generalizing H with
  | nil => rfl
  | cons c l ih =>
    rw [List.foldl_cons, List.foldl_cons, ih _ fun x hx => hm x (List.mem_cons_of_mem _ hx)]
    unfold chainingKey
    rw [toBlock_val (hm c (by simp))]

theorem textBlocks_inj (hb : A.lenBytes + 1 ≤ A.blockBytes) (hl : 8 ≤ A.lenBytes) {M M' : Bytes} (h1 : A.blockBytes + M.length < 2 ^ 61)
    (h2 : A.blockBytes + M'.length < 2 ^ 61) (h : textBlocks A M = textBlocks A M') : M = M' := by
  have e : ∀ M, (textBlocks A M).map Subtype.val = chunks A.blockBytes (paddedText A M) := by
    intro M
    unfold textBlocks
    rw [List.map_map]
    have hm := chunks_mem_length (n := A.blockBytes) (by omega) (padded_length A hb M)
    exact (List.map_congr_left fun c hc => toBlock_val (hm c hc)).trans (List.map_id _)
  have := congrArg (List.map Subtype.val) h
  rw [e, e] at this
  have := congrArg List.flatten this
  rw [chunks_flatten (by omega), chunks_flatten (by omega)] at this
  exact padded_inj A hl h1 h2 this

end General

/-! ## The attacker -/

section Attack
variable {w N n : Nat} {R : Type}

/-- Worlds with the same answers. -/
theorem play_short {W W' : World w} (h1 : W.compress = W'.compress) (h2 : ∀ M, M.length ≤ N → W.tag M = W'.tag M)
    (h3 : ∀ M t, M.length ≤ N → W.verify M t = W'.verify M t) (X : Attacker w R) (hX : X.Short N) : play W X = play W' X := by
  induction X with
  | stop r => rfl
  | compress H b next ih =>
    unfold play
    rw [← h1]
    exact ih _ (hX _)
  | tag M next ih =>
    unfold play
    rw [← h2 M hX.1]
    cases hW : W.tag M with
    | none => rfl
    | some t => exact ih t (hX.2 t)
  | verify M t next ih =>
    unfold play
    rw [← h3 M t hX.1]
    cases hW : W.verify M t with
    | none => rfl
    | some b => exact ih b (hX.2 b)

/-- The texts that are used. -/
def usedTexts (f : Oct w → Bytes → Oct w) (G : Keyed N n) : Attacker w R → List {x : Bytes // x.length ≤ N}
  | .stop _ => []
  | .compress H b next => usedTexts f G (next (f H b))
  | .tag M next => (if h : M.length ≤ N then [⟨M, h⟩] else []) ++ usedTexts f G (next (G.ask M))
  | .verify M t next => (if h : M.length ≤ N then [⟨M, h⟩] else []) ++ usedTexts f G (next (decide (G.ask M = t)))

theorem used_congr (f : Oct w → Bytes → Oct w) (G G' : Keyed N n) (X : Attacker w R) (h : ∀ m ∈ usedTexts f G X, G m = G' m) :
    play (idealWorld f G) X = play (idealWorld f G') X ∧ usedTexts f G X = usedTexts f G' X := by
  induction X with
  | stop r => exact ⟨rfl, rfl⟩
  | compress H b next ih => exact ih _ h
  | tag M next ih =>
    have e : G.ask M = G'.ask M := ask_congr h
    obtain ⟨i1, i2⟩ := ih (G.ask M) (fun m hm => h m (by unfold usedTexts; simp [hm]))
    refine ⟨?_, ?_⟩
    · show play _ (next (G.ask M)) = play _ (next (G'.ask M))
      rw [← e]; exact i1
    · show _ ++ usedTexts f G (next (G.ask M)) = _ ++ usedTexts f G' (next (G'.ask M))
      rw [← e, i2]
  | verify M t next ih =>
    have e : G.ask M = G'.ask M := ask_congr h
    obtain ⟨i1, i2⟩ := ih (decide (G.ask M = t)) (fun m hm => h m (by unfold usedTexts; simp [hm]))
    refine ⟨?_, ?_⟩
    · show play _ (next (decide (G.ask M = t))) = play _ (next (decide (G'.ask M = t)))
      rw [← e]; exact i1
    · show _ ++ usedTexts f G (next (decide (G.ask M = t))) = _ ++ usedTexts f G' (next (decide (G'.ask M = t)))
      rw [← e, i2]

theorem used_length (f : Oct w → Bytes → Oct w) (G : Keyed N n) (X : Attacker w R) (q v : Nat) (h : X.Uses q v) : (usedTexts f G X).length ≤ q := by
  induction X generalizing q v with
  | stop r => simp [usedTexts]
  | compress H b next ih => exact ih _ _ _ (h _)
  | tag M next ih =>
    obtain ⟨q, rfl, h⟩ := h
    have := ih _ _ _ (h (G.ask M))
    unfold usedTexts
    rw [List.length_append]
    split <;> simp <;> omega
  | verify M t next ih =>
    obtain ⟨q, rfl, v, rfl, h⟩ := h
    have := ih _ _ _ (h (decide (G.ask M = t)))
    unfold usedTexts
    rw [List.length_append]
    split <;> simp <;> omega

/-- The attacker that reports forgeries does so. -/
theorem forger_play (W : World w) (X : Attacker w R) (log : List Bytes) : play W (forger X log) = some true ↔ forges W X log := by
  induction X generalizing log with
  | stop r => simp [forger, play, forges]
  | compress H b next ih => exact ih _ _
  | tag M next ih =>
    unfold forger play forges
    cases W.tag M with
    | none => simp
    | some t => exact ih t _
  | verify M t next ih =>
    unfold forger play forges
    cases W.verify M t with
    | none => simp
    | some b =>
      simp only [Option.some.injEq]
      by_cases h : b = true ∧ M ∉ log
      · rw [if_pos h]
        simp [play, h]
      · rw [if_neg h, ih b log]
        constructor
        · exact Or.inr
        · rintro (h' | h')
          · exact absurd ⟨h'.2, h'.1⟩ h
          · exact h'

theorem forger_uses (X : Attacker w R) (q v : Nat) (h : X.Uses q v) (log : List Bytes) : (forger X log).Uses q v := by
  induction X generalizing q v log with
  | stop r => trivial
  | compress H b next ih => exact fun y => ih y _ _ (h y) _
  | tag M next ih =>
    obtain ⟨q, rfl, h⟩ := h
    exact ⟨q, rfl, fun t => ih t _ _ (h t) _⟩
  | verify M t next ih =>
    obtain ⟨q, rfl, v, rfl, h⟩ := h
    refine ⟨q, rfl, v, rfl, fun b => ?_⟩
    show Attacker.Uses (if b = true ∧ M ∉ log then Attacker.stop true else forger (next b) log) q v
    by_cases hb : b = true ∧ M ∉ log
    · rw [if_pos hb]; trivial
    · rw [if_neg hb]; exact ih b _ _ (h b) _

theorem forger_short (X : Attacker w R) (h : X.Short N) (log : List Bytes) : (forger X log).Short N := by
  induction X generalizing log with
  | stop r => trivial
  | compress H b next ih => exact fun y => ih y (h y) _
  | tag M next ih => exact ⟨h.1, fun t => ih t (h.2 t) _⟩
  | verify M t next ih =>
    refine ⟨h.1, fun b => ?_⟩
    show Attacker.Short N (if b = true ∧ M ∉ log then Attacker.stop true else forger (next b) log)
    by_cases hb : b = true ∧ M ∉ log
    · rw [if_pos hb]; trivial
    · rw [if_neg hb]; exact ih b (h.2 b) _

variable (A : Alg w) (f : Oct w → Bytes → Oct w)

theorem outerTest_chained (hn : n ≤ 8 * (w / 8)) (hnb : A.lenBytes + 1 + n ≤ A.blockBytes) (Ki Ko : Oct w) (X : Attacker w Bool) :
    (outerTest A f n Ki X).run (chainingKey A f Ko) = true ↔ play (chainedWorld A f n Ki Ko) X = some true := by
  have e : ∀ M, digestBytes n (chainingKey A f Ko (toBlock _ (paddedText A (hashAfter A f n Ki M)))) =
      hashAfter A f n Ko (hashAfter A f n Ki M) := fun M =>
    (hashAfter_short A f n hnb Ko _ (hashAfter_length A f n hn Ki M)).symm
  induction X with
  | stop b => simp [outerTest, Distinguisher.run, play]
  | compress H b next ih => exact ih _
  | tag M next ih =>
    show (outerTest A f n Ki (next (digestBytes n (chainingKey A f Ko (toBlock _ (paddedText A (hashAfter A f n Ki M))))))).run _ = true ↔ _
    rw [e]
    exact ih _
  | verify M t next ih =>
    show (outerTest A f n Ki (next (decide (digestBytes n (chainingKey A f Ko (toBlock _ (paddedText A (hashAfter A f n Ki M)))) = t)))).run _ = true ↔ _
    rw [e]
    exact ih _

/-- The block that the outer hash ends with. -/
def outerBlock (n : Nat) (Ki : Oct w) (M : {x : Bytes // x.length ≤ N}) : Block A.blockBytes :=
  toBlock _ (paddedText A (hashAfter A f n Ki M.1))

theorem outerTest_random (hn : n ≤ 8 * (w / 8)) (Ki : Oct w) (F : Block A.blockBytes → Oct w) (X : Attacker w Bool) (hX : X.Short N) :
    (outerTest A f n Ki X).run F = true ↔
      play (idealWorld f (fun M : {x : Bytes // x.length ≤ N} => out n hn (F (outerBlock A f n Ki M)))) X = some true := by
  have e : ∀ M, M.length ≤ N → Keyed.ask (fun M : {x : Bytes // x.length ≤ N} => out n hn (F (outerBlock A f n Ki M))) M =
      digestBytes n (F (toBlock _ (paddedText A (hashAfter A f n Ki M)))) := fun M hM => by
    unfold Keyed.ask
    rw [dif_pos hM]
    rfl
  induction X with
  | stop b => simp [outerTest, Distinguisher.run, play]
  | compress H b next ih => exact ih _ (hX _)
  | tag M next ih =>
    show _ ↔ play _ (next (Keyed.ask _ M)) = _
    rw [e M hX.1]
    exact ih _ (hX.2 _)
  | verify M t next ih =>
    show _ ↔ play _ (next (decide (Keyed.ask _ M = t))) = _
    rw [e M hX.1]
    exact ih _ (hX.2 _)

theorem outerTest_asks (n : Nat) (Ki : Oct w) (X : Attacker w Bool) (q v : Nat) (h : X.Uses q v) : (outerTest A f n Ki X).Asks q := by
  induction X generalizing q v with
  | stop b => trivial
  | compress H b next ih => exact ih _ _ _ (h _)
  | tag M next ih =>
    obtain ⟨q, rfl, h⟩ := h
    exact ⟨q, rfl, fun y => ih _ _ _ (h _)⟩
  | verify M t next ih =>
    obtain ⟨q, rfl, v, rfl, h⟩ := h
    exact ⟨q, rfl, fun y => ih _ _ _ (h _)⟩

/-- Cutting the values of a random function. -/
theorem cut_random (hw : w % 8 = 0) (hn : n ≤ 8 * (w / 8)) (E : Keyed N n → Prop) :
    prob (fun G : {x : Bytes // x.length ≤ N} → Oct w => E (fun m => out n hn (G m))) = prob E := by
  let e : ({x : Bytes // x.length ≤ N} → Oct w) ≃ Keyed N n × ({x : Bytes // x.length ≤ N} → {d : Bytes // d.length = 8 * (w / 8) - n}) :=
    ((Equiv.refl _).arrowCongr (splitOct hw n hn)).trans (Equiv.arrowProdEquivProdArrow _ _ _)
  rw [← prob_fst (β := {x : Bytes // x.length ≤ N} → {d : Bytes // d.length = 8 * (w / 8) - n}) (P := E), ← prob_equiv e]
  rfl

theorem outerBlock_eq (hn : n ≤ 8 * (w / 8)) (hl : 8 ≤ A.lenBytes) (hnb : A.lenBytes + 1 + n ≤ A.blockBytes) (hB : A.blockBytes + n < 2 ^ 61)
    (Ki : Oct w) (M M' : {x : Bytes // x.length ≤ N}) :
    outerBlock A f n Ki M = outerBlock A f n Ki M' ↔ hashAfter A f n Ki M.1 = hashAfter A f n Ki M'.1 := by
  have h1 := hashAfter_length A f n hn Ki M.1
  have h2 := hashAfter_length A f n hn Ki M'.1
  constructor
  · intro h
    have := congrArg Subtype.val h
    unfold outerBlock at this
    rw [toBlock_val (paddedText_short A n hnb _ h1), toBlock_val (paddedText_short A n hnb _ h2)] at this
    exact padded_inj A hl (by omega) (by omega) this
  · intro h
    unfold outerBlock
    rw [h]

theorem pads_ne (B : Nat) (h : 0 < B) : toBlock B (List.replicate B 0x36) ≠ toBlock B (List.replicate B 0x5c) := by
  intro e
  have := congrArg Subtype.val e
  rw [toBlock_val (by simp), toBlock_val (by simp)] at this
  have := congrArg (fun l : Bytes => l[0]?) this
  simp only [List.getElem?_replicate_of_lt h] at this
  revert this; decide

/-- The whole argument for HMAC with chaining values. -/
theorem chained_prf (iv : Oct w) (hw : w % 8 = 0) (hn : n ≤ 8 * (w / 8)) (hl : 8 ≤ A.lenBytes) (hnb : A.lenBytes + 1 + n ≤ A.blockBytes)
    (hB : A.blockBytes + n < 2 ^ 61) {kl : Nat} (X : Attacker w Bool) (q t : Nat) (hX : X.Short N) (hq : X.Uses q t) (δ : ℚ) (hδ0 : 0 ≤ δ)
    (hδ : ∀ M M' : Bytes, M.length ≤ N → M'.length ≤ N → M ≠ M' → prob (fun H => hashAfter A f n H M = hashAfter A f n H M') ≤ δ) :
    |prob (fun k : {k : Bytes // k.length = kl} => (keyTest A f n X).run (blockKey A f iv k.1) = true) -
      prob (fun G : Keyed N n => play (idealWorld f G) X = some true)| ≤
    advantage (fun k : {k : Bytes // k.length = kl} => blockKey A f iv k.1) (fun F : Block A.blockBytes → Oct w => F) (keyTest A f n X) +
    coinAdvantage (chainingKey A f) (fun F : Block A.blockBytes → Oct w => F) (fun Ki => outerTest A f n Ki X) +
    q * (q - 1) / 2 * δ := by
  have s1 : prob (fun F : Block A.blockBytes → Oct w => (keyTest A f n X).run F = true) =
      prob (fun p : Oct w × Oct w => (outerTest A f n p.2 X).run (chainingKey A f p.1) = true) := by
    rw [← prob_equiv (Equiv.prodComm (Oct w) (Oct w))]
    refine Eq.trans ?_ (prob_two (pads_ne A.blockBytes (by omega)) _)
    congr 1
    funext F
    refine propext (Iff.trans ?_ (outerTest_chained A f hn hnb _ _ X).symm)
    simp [keyTest, Distinguisher.run]
  have s2 : prob (fun p : (Block A.blockBytes → Oct w) × Oct w => (outerTest A f n p.2 X).run p.1 = true) =
      prob (fun p : (Block A.blockBytes → Oct w) × Oct w =>
        play (idealWorld f (fun M : {x : Bytes // x.length ≤ N} => out n hn (p.1 (outerBlock A f n p.2 M)))) X = some true) := by
    congr 1
    funext p
    exact propext (outerTest_random A f hn p.2 p.1 X hX)
  have s3 := inner_outer (outerBlock (N := N) A f n) (out n hn) (fun G => play (idealWorld f G) X = some true)
    (fun G => usedTexts f G X) (fun t t' h => ⟨by rw [(used_congr f t t' X h).1], (used_congr f t t' X h).2⟩) q
    (fun G => used_length f G X q t hq) δ hδ0 (fun M M' hne => by
      refine le_trans (prob_mono fun H hH => ?_) (hδ M.1 M'.1 M.2 M'.2 (fun e => hne (Subtype.ext e)))
      exact (outerBlock_eq A f hn hl hnb hB H M M').mp hH)
  rw [cut_random hw hn (fun G => play (idealWorld f G) X = some true)] at s3
  rw [← s2] at s3
  have a1 : |prob (fun k : {k : Bytes // k.length = kl} => (keyTest A f n X).run (blockKey A f iv k.1) = true) -
    prob (fun F : Block A.blockBytes → Oct w => (keyTest A f n X).run F = true)| ≤
    advantage (fun k : {k : Bytes // k.length = kl} => blockKey A f iv k.1) (fun F : Block A.blockBytes → Oct w => F) (keyTest A f n X) := le_refl _
  have a2 : |prob (fun p : Oct w × Oct w => (outerTest A f n p.2 X).run (chainingKey A f p.1) = true) -
    prob (fun p : (Block A.blockBytes → Oct w) × Oct w => (outerTest A f n p.2 X).run p.1 = true)| ≤
    coinAdvantage (chainingKey A f) (fun F : Block A.blockBytes → Oct w => F) (fun Ki => outerTest A f n Ki X) := le_refl _
  rw [s1] at a1
  rw [abs_le] at *
  constructor <;> linarith [a1.1, a1.2, a2.1, a2.2, s3.1, s3.2]

end Attack

/-! ## The theorems -/

/-- FIPS 180-4: the compression function. -/
def Variant.fipsCompress (v : Variant) : Oct v.width → Bytes → Oct v.width := compress v.alg

/-- The attacker's world: HMAC of the crate under a key. (The compression function is public.) -/
def crateWorld (v : Variant) (m : Mode) (key : Bytes) : World v.width where
  compress := v.fipsCompress
  tag M := Hmac.wrapper v.code m key M
  verify M t := Hmac.verify v.code m key M t

/-- The first test: two values of the compression function with the key in the block. -/
noncomputable abbrev keyAdvantage (v : Variant) (kl : Nat) (X : Attacker v.width Bool) : ℚ :=
  advantage (fun k : {k : Bytes // k.length = kl} => blockKey v.alg v.fipsCompress v.iv k.1)
    (fun F : Block v.alg.blockBytes → Oct v.width => F) (keyTest v.alg v.fipsCompress v.size X)

/-- A test of the compression function with the chaining value as the key. -/
noncomputable abbrev chainAdvantage (v : Variant) (D : Oct v.width → Distinguisher (Block v.alg.blockBytes) (Oct v.width)) : ℚ :=
  coinAdvantage (chainingKey v.alg v.fipsCompress) (fun F : Block v.alg.blockBytes → Oct v.width => F) D

/-- The second test: the last evaluations of the outer hash. -/
noncomputable abbrev outerAdvantage (v : Variant) (X : Attacker v.width Bool) : ℚ :=
  chainAdvantage v fun Ki => outerTest v.alg v.fipsCompress v.size Ki X

/-- How often two texts have the same inner hash, when the chaining value after the key is random. -/
noncomputable def innerCollision (v : Variant) (M M' : Bytes) : ℚ :=
  prob (fun H => hashAfter v.alg v.fipsCompress v.size H M = hashAfter v.alg v.fipsCompress v.size H M')

theorem Variant.block_alg (v : Variant) : v.block = v.alg.blockBytes := by cases v <;> rfl

theorem hmac_chained (v : Variant) (key M : Bytes) (hk : key.length ≤ v.block) :
    Spec.hmac v.fips v.block key M = hashAfter v.alg v.fipsCompress v.size
      (v.fipsCompress v.iv (xorBytes (key ++ zeros (v.alg.blockBytes - key.length)) (List.replicate v.alg.blockBytes 0x5c)))
      (hashAfter v.alg v.fipsCompress v.size
        (v.fipsCompress v.iv (xorBytes (key ++ zeros (v.alg.blockBytes - key.length)) (List.replicate v.alg.blockBytes 0x36))) M) := by
  have h0 : 0 < v.alg.blockBytes := by cases v <;> decide
  have e : ∀ M, v.fips M = digestF v.alg v.fipsCompress v.iv v.size M := fun M => v.fips_eq M
  rw [v.block_alg] at hk ⊢
  unfold Spec.hmac Spec.hmacKey
  rw [if_neg (by omega)]
  simp only
  rw [e, e, digestF_hashAfter _ _ _ _ _ _ h0 (by simp [xorBytes]; omega), digestF_hashAfter _ _ _ _ _ _ h0 (by simp [xorBytes]; omega)]

/-- Run on the compression function with a key in the block, the first test reports how the attack on HMAC of the crate under that key ends. -/
theorem C122_runs (v : Variant) (m : Mode) (N : Nat) (hN : v.block + N < 2 ^ 61) (X : Attacker v.width Bool) (hX : X.Short N) (key : Bytes)
    (hk : key.length ≤ v.block) :
    (keyTest v.alg v.fipsCompress v.size X).run (blockKey v.alg v.fipsCompress v.iv key) = true ↔ play (crateWorld v m key) X = some true := by
  have hb : v.block ≤ 128 := by cases v <;> decide
  unfold keyTest
  simp only [Distinguisher.run, decide_eq_true_eq]
  unfold blockKey
  rw [toBlock_val (by simp), toBlock_val (by simp)]
  have e := play_short (N := N) (W := chainedWorld v.alg v.fipsCompress v.size
      (v.fipsCompress v.iv (xorBytes (key ++ zeros (v.alg.blockBytes - key.length)) (List.replicate v.alg.blockBytes 0x36)))
      (v.fipsCompress v.iv (xorBytes (key ++ zeros (v.alg.blockBytes - key.length)) (List.replicate v.alg.blockBytes 0x5c))))
    (W' := crateWorld v m key) rfl (fun M hM => by
      show some _ = Hmac.wrapper _ _ _ _
      rw [C06_hmac_rfc2104 v m key M (by omega) (by omega), hmac_chained v key M hk]) (fun M t hM => by
      show some (decide _) = Hmac.verify _ _ _ _ _
      rw [hmac_verify_spec v.lawful m key M t (by omega) (by rw [v.blockSize_eq]; omega), v.blockSize_eq, hmac_chained v key M hk]) X hX
  rw [e]

/-- **HMAC of the crate is pseudorandom if the compression function is.** The attacker uses HMAC of the crate, under a random key of at most a
block, for at most `q` texts (it may have tags computed and verified), and ends with a guess. It tells HMAC from a random function from texts to tags with
at most: the advantage of a test with two questions of the compression function with the key in the block, plus the advantage of a test with `q` questions
of the compression function with the chaining value as the key, plus `q (q - 1) / 2` times the probability `δ` that two texts collide in the inner hash. -/
theorem C122_prf (v : Variant) (m : Mode) (kl N : Nat) (hk : kl ≤ v.block) (hN : v.block + N < 2 ^ 61) (X : Attacker v.width Bool) (q t : Nat)
    (hX : X.Short N) (hq : X.Uses q t) (δ : ℚ) (hδ0 : 0 ≤ δ)
    (hδ : ∀ M M' : Bytes, M.length ≤ N → M'.length ≤ N → M ≠ M' → innerCollision v M M' ≤ δ) :
    |prob (fun k : {k : Bytes // k.length = kl} => play (crateWorld v m k.1) X = some true) -
      prob (fun G : Keyed N v.size => play (idealWorld v.fipsCompress G) X = some true)| ≤
    keyAdvantage v kl X + outerAdvantage v X + q * (q - 1) / 2 * δ := by
  have h := chained_prf (kl := kl) v.alg v.fipsCompress v.iv (by cases v <;> decide) (by cases v <;> decide) (by cases v <;> decide) (by cases v <;> decide)
    (by cases v <;> decide) X q t hX hq δ hδ0 hδ
  rwa [hmac_prob_congr fun k : {k : Bytes // k.length = kl} => C122_runs v m N hN X hX k.1 (by rw [k.2]; exact hk)] at h

/-- The tests ask two and at most `q` questions. -/
theorem C122_asks (v : Variant) (X : Attacker v.width Bool) (q t : Nat) (hq : X.Uses q t) :
    (keyTest v.alg v.fipsCompress v.size X).Asks 2 ∧ ∀ Ki, (outerTest v.alg v.fipsCompress v.size Ki X).Asks q :=
  ⟨⟨1, rfl, fun _ => ⟨0, rfl, fun _ => trivial⟩⟩, fun Ki => outerTest_asks v.alg v.fipsCompress v.size Ki X q t hq⟩

/-- A random function in place of HMAC: a tag can only be guessed. -/
theorem ideal_forges_short {w N n : Nat} {R : Type} (f : Oct w → Bytes → Oct w) (X : Attacker w R) (q v : Nat) (hX : X.Short N) (hq : X.Uses q v)
    (log : List Bytes) (S : Set (Keyed N n))
    (hS : ∀ G ∈ S, ∀ x : {x : Bytes // x.length ≤ N}, x.1 ∉ log → ∀ y, Function.update G x y ∈ S) :
    Switch.cprob S (fun G => forges (idealWorld f G) X log) ≤ v * (1 / 256 ^ n) := by
  classical
  induction X generalizing q v log S with
  | stop r =>
    have : Switch.cprob S (fun G => forges (idealWorld f G) (Attacker.stop r : Attacker w R) log) = 0 := by
      unfold Switch.cprob forges
      simp
    rw [this]; positivity
  | compress H b next ih => exact ih (f H b) _ _ (hX _) (hq _) log S hS
  | tag M next ih =>
    obtain ⟨q, rfl, h⟩ := hq
    obtain ⟨hM, hX⟩ := hX
    refine HmacIdeal.cprob_cases S (fun G => G.ask M) _ _ (by positivity) fun y _ => ?_
    refine le_trans (le_of_eq (Switch.cprob_congr fun G hG => ?_)) (ih y _ _ (hX y) (h y) (M :: log) {G ∈ S | G.ask M = y} ?_)
    · show forges _ (next (G.ask M)) (M :: log) ↔ _
      rw [show G.ask M = y from hG.2]
    · rintro G ⟨hG1, hG2⟩ x hx z
      simp only [List.mem_cons, not_or] at hx
      refine ⟨hS G hG1 x hx.2 z, ?_⟩
      rw [← hG2]
      unfold Keyed.ask
      rw [dif_pos hM, dif_pos hM, Function.update_of_ne]
      intro e
      exact hx.1 (congrArg Subtype.val e).symm
  | verify M t next ih =>
    obtain ⟨q, rfl, v, rfl, h⟩ := hq
    obtain ⟨hM, hX⟩ := hX
    by_cases hlog : M ∈ log
    · refine HmacIdeal.cprob_cases S (fun G => decide (G.ask M = t)) _ _ (by positivity) fun y _ => ?_
      refine le_trans (le_of_eq (Switch.cprob_congr fun G hG => ?_)) (le_trans (ih y _ _ (hX y) (h y) log {G ∈ S | decide (G.ask M = t) = y} ?_) ?_)
      · show (M ∉ log ∧ _) ∨ forges _ (next (decide (G.ask M = t))) log ↔ _
        rw [show decide (G.ask M = t) = y from hG.2]
        simp [hlog]
      · rintro G ⟨hG1, hG2⟩ x hx z
        refine ⟨hS G hG1 x hx z, ?_⟩
        rw [← hG2]
        unfold Keyed.ask
        rw [dif_pos hM, dif_pos hM, Function.update_of_ne]
        intro e
        exact hx (by rw [← congrArg Subtype.val e]; exact hlog)
      · refine mul_le_mul_of_nonneg_right ?_ (by positivity)
        push_cast; linarith
    · have h1 : Switch.cprob S (fun G => G.ask M = t) ≤ 1 / 256 ^ n := by
        have := HmacIdeal.cprob_point S (⟨M, hM⟩ : {x : Bytes // x.length ≤ N}) (fun G hG y => hS G hG _ hlog y) (fun d => d.1 = t)
        refine le_trans (le_of_eq (Switch.cprob_congr fun G _ => ?_)) (this.trans ?_)
        · unfold Keyed.ask; rw [dif_pos hM]
        · unfold prob
          rw [card_digest]
          push_cast
          refine div_le_div_of_nonneg_right ?_ (by positivity)
          have : {k : {d : Bytes // d.length = n} | k.1 = t}.ncard ≤ 1 := by
            rw [Set.ncard_le_one_iff]
            intro a b ha hb
            exact Subtype.ext (ha.trans hb.symm)
          exact_mod_cast this
      have h2 := ih false _ _ (hX false) (h false) log S hS
      refine le_trans (HmacIdeal.cprob_mono S fun G _ hG => ?_) (le_trans (HmacIdeal.cprob_or S _ _) (le_trans (add_le_add h1 h2) ?_))
      · have hG : (M ∉ log ∧ some (decide (G.ask M = t)) = some true) ∨ forges (idealWorld f G) (next (decide (G.ask M = t))) log := hG
        by_cases e : G.ask M = t
        · exact Or.inl e
        · simp only [e, decide_false] at hG
          rcases hG with hG | hG
          · exact absurd hG.2 (by simp)
          · exact Or.inr hG
      · push_cast; linarith

/-- **HMAC of the crate cannot be forged if the compression function is pseudorandom.** An attacker that uses HMAC of the crate, under a random key of at most
a block, for at most `q` texts, and has `t` tags verified, gets a tag accepted for a text whose tag it has not asked for with probability at most
`t / 256 ^ size` plus the error of `C122_prf`, for the tests made of the attacker that reports the forgery. -/
theorem C122_unforgeable (v : Variant) (m : Mode) (kl N : Nat) (hk : kl ≤ v.block) (hN : v.block + N < 2 ^ 61) {R : Type} (X : Attacker v.width R)
    (q t : Nat) (hX : X.Short N) (hq : X.Uses q t) (δ : ℚ) (hδ0 : 0 ≤ δ)
    (hδ : ∀ M M' : Bytes, M.length ≤ N → M'.length ≤ N → M ≠ M' → innerCollision v M M' ≤ δ) :
    prob (fun k : {k : Bytes // k.length = kl} => forges (crateWorld v m k.1) X []) ≤
    t / 256 ^ v.size + (keyAdvantage v kl (forger X []) + outerAdvantage v (forger X []) + q * (q - 1) / 2 * δ) := by
  have h := (abs_le.mp (C122_prf v m kl N hk hN (forger X []) q t (forger_short X hX []) (forger_uses X q t hq []) δ hδ0 hδ)).2
  rw [hmac_prob_congr fun k : {k : Bytes // k.length = kl} => forger_play (crateWorld v m k.1) X [],
    hmac_prob_congr fun G : Keyed N v.size => forger_play (idealWorld v.fipsCompress G) X []] at h
  have h2 := ideal_forges_short (n := v.size) v.fipsCompress X q t hX hq [] Set.univ (fun _ _ _ _ _ => Set.mem_univ _)
  rw [HmacIdeal.cprob_univ] at h2
  have : (t : ℚ) * (1 / 256 ^ v.size) = t / 256 ^ v.size := by ring
  linarith

/-! ## The inner hash -/

theorem otherBlock_ne (B : Nat) (h : 0 < B) (b : Block B) : otherBlock B b ≠ b := by
  unfold otherBlock
  split
  · next e =>
    intro e'
    have := congrArg Subtype.val e'
    rw [toBlock_val (by simp), e] at this
    have := congrArg (fun l : Bytes => l[0]?) this
    unfold zeros at this
    simp only [List.getElem?_replicate_of_lt h] at this
    revert this; decide
  · next e =>
    intro e'
    have := congrArg Subtype.val e'
    rw [toBlock_val (by simp)] at this
    exact e this.symm

/-- The tests for two texts. -/
abbrev collisionTestsOf (v : Variant) (M M' : Bytes) : List (Oct v.width → Distinguisher (Block v.alg.blockBytes) (Oct v.width)) :=
  textTests v.alg v.fipsCompress M M'

/-- **Two texts rarely collide in the inner hash.** For SHA-256 and SHA-512, whose digests are whole chaining values: two different texts have the same
inner hash, for a random chaining value after the key, with at most `2 ^ -bits` plus the sum of the advantages of the tests for these texts. -/
theorem C122_collision (v : Variant) (hv : v = .sha256 ∨ v = .sha512) (M M' : Bytes) (hM : v.block + M.length < 2 ^ 61)
    (hM' : v.block + M'.length < 2 ^ 61) (hne : M ≠ M') :
    innerCollision v M M' ≤ ((collisionTestsOf v M M').map (chainAdvantage v)).sum + 1 / 256 ^ v.size := by
  have hb : v.alg.lenBytes + 1 ≤ v.alg.blockBytes := by cases v <;> decide
  have hl : 8 ≤ v.alg.lenBytes := by cases v <;> decide
  rw [v.block_alg] at hM hM'
  have h := collision_le (chainingKey v.alg v.fipsCompress) (otherBlock v.alg.blockBytes) (otherBlock_ne _ (by omega)) (textBlocks v.alg M) (textBlocks v.alg M')
    (fun e => hne (textBlocks_inj v.alg hb hl hM hM' e))
  have hc : ((1 : ℚ) / Nat.card (Oct v.width)) = 1 / 256 ^ v.size := by
    rw [card_oct]
    have e : 8 * v.size = 8 * v.width := by rcases hv with rfl | rfl <;> rfl
    rw [show (256 : ℚ) = 2 ^ 8 by norm_num, ← pow_mul, e]
    push_cast
    rfl
  rw [hc] at h
  refine le_trans (prob_mono fun H hH => ?_) h
  rw [hashAfter_blocks _ _ _ hb, hashAfter_blocks _ _ _ hb] at hH
  generalize (textBlocks v.alg M).foldl _ H = H1 at *
  generalize (textBlocks v.alg M').foldl _ H = H2 at *
  unfold digestBytes at hH
  rcases hv with rfl | rfl
  · exact take_words_inj 4 H1 H2 hH
  · exact take_words_inj 8 H1 H2 hH

theorem textBlocks_length (v : Variant) (M : Bytes) : (textBlocks v.alg M).length = v.blocks M.length := by
  have hb : v.alg.lenBytes + 1 ≤ v.alg.blockBytes := by cases v <;> decide
  have h := blocksOf_length v.alg hb M
  have e : (textBlocks v.alg M).length = (blocksOf v.alg hb M).length := by
    unfold textBlocks blocksOf
    rw [List.length_map, List.length_pmap]
    rfl
  rw [e, h]
  unfold cost Variant.blocks
  rw [v.block_alg]

/-- There are at most as many tests as blocks of the first text (with its padding), and one; each asks at most two questions. -/
theorem C122_collision_asks (v : Variant) (M M' : Bytes) :
    (collisionTestsOf v M M').length ≤ v.blocks M.length + 1 ∧ ∀ D ∈ collisionTestsOf v M M', ∀ coin, (D coin).Asks 2 := by
  rw [← textBlocks_length]
  exact ⟨collisionTests_length _ _ _ _, collisionTests_asks _ _ _ _⟩

theorem blocks_mono (v : Variant) {a b : Nat} (h : a ≤ b) : v.blocks a ≤ v.blocks b :=
  Nat.add_le_add_right (Nat.div_le_div_right (by omega)) _

/-- If no test for two texts of at most `N` bytes has an advantage of more than `ε`, then two such texts collide in the inner hash with probability at
most `(blocks + 1) ε + 2 ^ -bits`. -/
theorem C122_inner (v : Variant) (hv : v = .sha256 ∨ v = .sha512) (N : Nat) (hN : v.block + N < 2 ^ 61) (ε : ℚ) (hε0 : 0 ≤ ε)
    (hε : ∀ M M' : Bytes, M.length ≤ N → M'.length ≤ N → ∀ D ∈ collisionTestsOf v M M', chainAdvantage v D ≤ ε) (M M' : Bytes)
    (hM : M.length ≤ N) (hM' : M'.length ≤ N) (hne : M ≠ M') : innerCollision v M M' ≤ (v.blocks N + 1) * ε + 1 / 256 ^ v.size := by
  refine le_trans (C122_collision v hv M M' (by omega) (by omega) hne) (add_le_add_left ?_ _)
  have h1 : ∀ l : List (Oct v.width → Distinguisher (Block v.alg.blockBytes) (Oct v.width)), (∀ D ∈ l, chainAdvantage v D ≤ ε) →
      (l.map (chainAdvantage v)).sum ≤ l.length * ε := by
    intro l
    induction l with
    | nil => simp
    | cons D l ih =>
      intro h
      have i1 := ih fun D hD => h D (List.mem_cons_of_mem _ hD)
      have i2 := h D (by simp)
      simp only [List.map_cons, List.sum_cons, List.length_cons]
      push_cast
      linarith
  refine le_trans (h1 _ (hε M M' hM hM')) (mul_le_mul_of_nonneg_right ?_ hε0)
  have h2 := (C122_collision_asks v M M').1
  have h3 := blocks_mono v hM
  exact_mod_cast (by omega : (collisionTestsOf v M M').length ≤ v.blocks N + 1)

/-- **HMAC-SHA-256 and HMAC-SHA-512 of the crate**: if no test for two texts of at most `N` bytes has an advantage of more than `ε`, then the attacker tells HMAC from a
random function with at most the advantages of the first two tests plus `q (q - 1) / 2 * ((blocks + 1) ε + 2 ^ -bits)`. -/
theorem C122_full_prf (v : Variant) (hv : v = .sha256 ∨ v = .sha512) (m : Mode) (kl N : Nat) (hk : kl ≤ v.block) (hN : v.block + N < 2 ^ 61)
    (X : Attacker v.width Bool) (q t : Nat) (hX : X.Short N) (hq : X.Uses q t) (ε : ℚ) (hε0 : 0 ≤ ε)
    (hε : ∀ M M' : Bytes, M.length ≤ N → M'.length ≤ N → ∀ D ∈ collisionTestsOf v M M', chainAdvantage v D ≤ ε) :
    |prob (fun k : {k : Bytes // k.length = kl} => play (crateWorld v m k.1) X = some true) -
      prob (fun G : Keyed N v.size => play (idealWorld v.fipsCompress G) X = some true)| ≤
    keyAdvantage v kl X + outerAdvantage v X + q * (q - 1) / 2 * ((v.blocks N + 1) * ε + 1 / 256 ^ v.size) :=
  C122_prf v m kl N hk hN X q t hX hq _ (by positivity) (C122_inner v hv N hN ε hε0 hε)

/-! ## Concrete cases -/

/-- The attacker of C104 uses two texts of at most one byte. -/
theorem tryOne_uses : tryOne.Short 1 ∧ tryOne.Uses 2 1 :=
  ⟨⟨by decide, fun _ _ => ⟨by decide, fun _ => trivial⟩⟩, 1, rfl, fun _ _ => ⟨0, rfl, 0, rfl, fun _ => trivial⟩⟩

example (m : Mode) (ε : ℚ) (hε0 : 0 ≤ ε)
    (hε : ∀ M M' : Bytes, M.length ≤ 1 → M'.length ≤ 1 → ∀ D ∈ collisionTestsOf .sha256 M M', chainAdvantage .sha256 D ≤ ε) :
    |prob (fun k : {k : Bytes // k.length = 32} => play (crateWorld .sha256 m k.1) tryOne = some true) -
      prob (fun G : Keyed 1 32 => play (idealWorld Variant.sha256.fipsCompress G) tryOne = some true)| ≤
    keyAdvantage .sha256 32 tryOne + outerAdvantage .sha256 tryOne + 2 * (2 - 1) / 2 * (2 * ε + 1 / 256 ^ 32) := by
  have h := C122_full_prf .sha256 (Or.inl rfl) m 32 1 (by decide) (by decide) tryOne 2 1 tryOne_uses.1 tryOne_uses.2 ε hε0 hε
  have e : Variant.sha256.blocks 1 = 1 := by decide
  rw [e] at h
  refine h.trans (le_of_eq ?_)
  have : Variant.sha256.size = 32 := rfl
  rw [this]
  norm_num

/-- The hypothesis can be met: an advantage is never more than one. -/
theorem chainAdvantage_le_one (v : Variant) (D : Oct v.width → Distinguisher (Block v.alg.blockBytes) (Oct v.width)) : chainAdvantage v D ≤ 1 := by
  have h : ∀ {α : Type} [Finite α] (P : α → Prop), 0 ≤ prob P ∧ prob P ≤ 1 := fun P => by
    rw [← HmacIdeal.cprob_univ]
    exact ⟨Switch.cprob_nonneg _ _, Switch.cprob_le_one _ _⟩
  unfold chainAdvantage coinAdvantage
  rw [abs_le]
  constructor <;> linarith [(h (fun q : Oct v.width × Oct v.width => (D q.2).run (chainingKey v.alg v.fipsCompress q.1) = true)).1,
    (h (fun q : Oct v.width × Oct v.width => (D q.2).run (chainingKey v.alg v.fipsCompress q.1) = true)).2,
    (h (fun q : (Block v.alg.blockBytes → Oct v.width) × Oct v.width => (D q.2).run q.1 = true)).1,
    (h (fun q : (Block v.alg.blockBytes → Oct v.width) × Oct v.width => (D q.2).run q.1 = true)).2]

example (m : Mode) : |prob (fun k : {k : Bytes // k.length = 32} => play (crateWorld .sha256 m k.1) tryOne = some true) -
      prob (fun G : Keyed 1 32 => play (idealWorld Variant.sha256.fipsCompress G) tryOne = some true)| ≤
    keyAdvantage .sha256 32 tryOne + outerAdvantage .sha256 tryOne +
      (2 : Nat) * ((2 : Nat) - 1) / 2 * ((Variant.sha256.blocks 1 + 1) * 1 + 1 / 256 ^ 32) :=
  C122_full_prf .sha256 (Or.inl rfl) m 32 1 (by decide) (by decide) tryOne 2 1 tryOne_uses.1 tryOne_uses.2 1 zero_le_one
    fun _ _ _ _ D _ => chainAdvantage_le_one .sha256 D

/-- The texts `[]` and `[1]` have one block each, and these differ: one test. -/
example : (collisionTestsOf .sha256 [] [1]).length = 1 := by decide +kernel

/-- The attacker of C104 has one tag verified. -/
example (m : Mode) (δ : ℚ) (hδ0 : 0 ≤ δ) (hδ : ∀ M M' : Bytes, M.length ≤ 1 → M'.length ≤ 1 → M ≠ M' → innerCollision .sha384 M M' ≤ δ)
    (X : Attacker 64 Bool) (hX : X.Short 1) (hq : X.Uses 2 1) :
    prob (fun k : {k : Bytes // k.length = 48} => forges (crateWorld .sha384 m k.1) X []) ≤
    (1 : Nat) / 256 ^ 48 + (keyAdvantage .sha384 48 (forger X []) + outerAdvantage .sha384 (forger X []) + (2 : Nat) * ((2 : Nat) - 1) / 2 * δ) :=
  C122_unforgeable .sha384 m 48 1 (by decide) (by decide) X 2 1 hX hq δ hδ0 hδ

end CryptoPure.Props
