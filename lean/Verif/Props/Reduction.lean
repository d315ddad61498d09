import Verif.Proofs.Reduce
import Verif.Props.GcmPerm
import Verif.Props.Channel
import Verif.Proofs.ChaCha20

/-! # C120: breaking the AEADs of the crate means breaking AES or the ChaCha20 block function

For the code under a random key, not for an idealisation. The distinguishers are written out in
Verif/Spec/Distinguisher.lean: they run the attack. -/

namespace CryptoPure.Props
open CryptoPure.Model CryptoPure.Game CryptoPure.Distinguisher
open Spec.Gcm (bits bytes)
open Proofs.GHashUniversal (bits_bytes bytes_bits)

attribute [local irreducible] toBE CryptoPure.Model.ChaCha20.block

theorem prob_congr {K : Type} {P Q : K → Prop} (h : ∀ k, P k ↔ Q k) : prob P = prob Q := by
  unfold prob
  simp only [h]

/-! ## AES-GCM -/

/-- The keys of AES-128, AES-192 or AES-256. -/
abbrev AesKey (k : AesKind) := {key : Bytes // key.length = 4 * k.Nk}

/-- FIPS 197: AES under a key, as a function on blocks. -/
def aesFunction (k : AesKind) (key : AesKey k) (x : BitVec 128) : BitVec 128 := bits (Spec.Aes.aes k.Nk key.1 (bytes x))

/-- The blocks that AES is applied to in a call: the zero block, and the nonce with the counters `1, …, blocks + 1`. -/
def gcmPoints (nonce : Bytes) (len : Nat) : List (BitVec 128) :=
  bits (zeros 16) :: (List.range ((len + 15) / 16 + 1)).map fun i => bits (nonce ++ toBE 4 (i + 1))

/-- How many they are. -/
def gcmCost (len : Nat) : Nat := (len + 15) / 16 + 2

/-- AES-GCM of the crate under a random key. -/
abbrev aesGcm (k : AesKind) (m : Mode) : Scheme (AesKey k) := withKeys (aeadScheme (gcmAead k.code) m) (4 * k.Nk)

/-- How well `D` tells AES under a random key from a random permutation of the blocks. -/
noncomputable abbrev aesAdvantage (k : AesKind) (D : Distinguisher (BitVec 128) (BitVec 128)) : ℚ :=
  advantage (aesFunction k) (fun π : Equiv.Perm (BitVec 128) => (π : BitVec 128 → BitVec 128)) D

theorem gcm_local (m : Mode) : Local (gcmScheme oracle m) gcmPoints := by
  have key : ∀ (F F' : BlockFunction) (nonce : Bytes) (l : Nat), (∀ x ∈ gcmPoints nonce l, F x = F' x) →
      Same (oracle.permute F') (oracle.permute F) nonce l := by
    intro F F' nonce l h
    refine ⟨congrArg bytes (h _ (List.mem_cons_self ..)), fun i hi => congrArg bytes (h _ ?_)⟩
    exact List.mem_cons_of_mem _ (List.mem_map.mpr ⟨i, List.mem_range.mpr hi, rfl⟩)
  exact ⟨fun F F' msg nonce data buffer h => enc_same (oracle_length F') (oracle_length F) (fun _ => key F F' nonce _ h) m data buffer,
    fun F F' ct nonce data t buffer h => dec_same (oracle_length F') (oracle_length F) (fun _ => key F F' nonce _ h) m data t buffer⟩

theorem gcmPoints_length (nonce : Bytes) (l : Nat) : (gcmPoints nonce l).length ≤ gcmCost l := by
  simp [gcmPoints, gcmCost]

theorem aesGcm_eq (k : AesKind) (m : Mode) (key : AesKey k) :
    (aesGcm k m).enc key = (gcmScheme oracle m).enc (aesFunction k key) ∧
    (aesGcm k m).dec key = (gcmScheme oracle m).dec (aesFunction k key) := by
  have hs : ∃ st, k.code.new key.1 = some st := by
    rw [← Option.ne_none_iff_exists']
    exact fun h => (C17_key_length k key.1).mp h key.2
  obtain ⟨st, hs⟩ := hs
  have hlen := C16_length k key.1 st hs
  have hp : ∀ x : Bytes, x.length = 16 → oracle.permute (aesFunction k key) x = k.code.permute st x := by
    intro x hx
    show bytes (bits (Spec.Aes.aes k.Nk key.1 (bytes (bits x)))) = _
    rw [bytes_bits x hx, C15_fips197 k key.1 x hx st hs, bytes_bits]
    rw [← C15_fips197 k key.1 x hx st hs]; exact hlen x hx
  have h2 : (gcmAead k.code).new key.1 = some st := hs
  constructor
  · funext msg nonce data buffer
    show ((gcmAead k.code).new key.1).bind _ = _
    rw [h2]
    exact enc_same (oracle_length _) hlen (fun hn => ⟨(hp _ (by simp)).symm, fun i _ => (hp _ (by simp [hn])).symm⟩) m data buffer
  · funext ct nonce data t buffer
    show ((gcmAead k.code).new key.1).bind _ = _
    rw [h2]
    exact dec_same (oracle_length _) hlen (fun hn => ⟨(hp _ (by simp)).symm, fun i _ => (hp _ (by simp [hn])).symm⟩) m data t buffer

theorem costs_blockCalls (A : Adversary) (s : Nat) (h : Costs gcmCost A s) : BlockCalls A s := by
  induction A generalizing s with
  | stop g => trivial
  | encrypt nonce data msg msg' buffer next ih =>
    obtain ⟨s', e, h⟩ := h
    exact ⟨s', e, fun r => ih r _ (h r)⟩
  | decrypt nonce data ct t buffer next ih =>
    obtain ⟨s', e, h⟩ := h
    exact ⟨s', e, fun r => ih r _ (h r)⟩

/-- The distinguisher for AES made of an attack on AES-GCM that forges. -/
def aesFromForger (m : Mode) (right : Bool) (A : Adversary) : Distinguisher (BitVec 128) (BitVec 128) :=
  forgeryTest (gcmScheme oracle m) gcmPoints right A []

/-- The distinguisher for AES made of an attack on AES-GCM that tells messages apart. -/
def aesFromGuesser (m : Mode) (right : Bool) (A : Adversary) : Distinguisher (BitVec 128) (BitVec 128) :=
  guessTest (gcmScheme oracle m) gcmPoints right A []

/-- The distinguishers ask for as many blocks as the attack makes the code encrypt: two for each call and one for each block of
the message. -/
theorem C120_gcm_distinguisher (m : Mode) (A : Adversary) (s : Nat) (hs : Costs gcmCost A s) (right : Bool) :
    (aesFromForger m right A).Asks s ∧ (aesFromGuesser m right A).Asks s :=
  ⟨(tests_asks gcmCost gcmPoints_length right A s hs []).2, (tests_asks gcmCost gcmPoints_length right A s hs []).1⟩

/-- Run on AES under a key, the distinguishers report how the attack on AES-GCM of the crate under that key ends. -/
theorem C120_gcm_runs (k : AesKind) (m : Mode) (A : Adversary) (right : Bool) (key : AesKey k) :
    ((aesFromForger m right A).run (aesFunction k key) = true ↔ forges (aesGcm k m) right key A []) ∧
    (aesFromGuesser m right A).run (aesFunction k key) = play (aesGcm k m) right key A [] := by
  rw [forges_congr (aesGcm_eq k m key).1 (aesGcm_eq k m key).2, play_congr (aesGcm_eq k m key).1 (aesGcm_eq k m key).2]
  exact ⟨forgeryTest_run (gcm_local m) right _ A [], guessTest_run (gcm_local m) right _ A []⟩

/-- **Forging AES-GCM of the crate under a random key.** An adaptive attack with `a` attempts of at most `n` blocks each, and `s`
blocks encrypted with AES altogether, succeeds with at most the advantage with which the distinguisher made of it tells AES from
a random permutation, plus `a n / 2^128 + s (s - 1) / 2^129`. -/
theorem C120_gcm_forgery (k : AesKind) (m : Mode) (A : Adversary) (a n s : Nat) (hn : n ≤ 2 ^ 32 - 3) (hA : Within authCount n A a)
    (hs : Costs gcmCost A s) (right : Bool) :
    prob (fun key => forges (aesGcm k m) right key A []) ≤
      aesAdvantage k (aesFromForger m right A) + a * n / 2 ^ 128 + s * (s - 1) / 2 ^ 129 := by
  have h1 := C91_gcm_permutation_forgery m A a n s hn hA (costs_blockCalls A s hs) right
  have e1 : prob (fun key => forges (aesGcm k m) right key A []) =
      prob (fun key => (aesFromForger m right A).run (aesFunction k key) = true) :=
    prob_congr fun key => (C120_gcm_runs k m A right key).1.symm
  have e2 : prob (fun π => forges (gcmScheme permOracle m) right π A []) =
      prob (fun π : Equiv.Perm (BitVec 128) => (aesFromForger m right A).run π = true) :=
    prob_congr fun π => by
      rw [forges_congr (perm_enc m π) (perm_dec m π)]
      exact (forgeryTest_run (gcm_local m) right _ A []).symm
  rw [e1]
  rw [e2] at h1
  have h2 := le_abs_self (prob (fun key => (aesFromForger m right A).run (aesFunction k key) = true) -
    prob (fun π : Equiv.Perm (BitVec 128) => (aesFromForger m right A).run π = true))
  change _ ≤ aesAdvantage k (aesFromForger m right A) at h2
  linarith

/-- **Reading AES-GCM of the crate under a random key.** Such an attack tells the first messages of its pairs from the second
ones with at most the advantages of the two distinguishers made of it (one for each side), plus
`2 a n / 2^128 + s (s - 1) / 2^128`. -/
theorem C120_gcm_confidentiality (k : AesKind) (m : Mode) (A : Adversary) (a n s : Nat) (hn : n ≤ 2 ^ 32 - 3)
    (hA : Within authCount n A a) (hs : Costs gcmCost A s) :
    |prob (fun key => play (aesGcm k m) false key A [] = true) - prob (fun key => play (aesGcm k m) true key A [] = true)| ≤
      aesAdvantage k (aesFromGuesser m false A) + aesAdvantage k (aesFromGuesser m true A) +
      2 * (a * n / 2 ^ 128) + s * (s - 1) / 2 ^ 128 := by
  have h1 := C91_gcm_permutation_confidentiality m A a n s hn hA (costs_blockCalls A s hs)
  have e1 : ∀ right, prob (fun key => play (aesGcm k m) right key A [] = true) =
      prob (fun key => (aesFromGuesser m right A).run (aesFunction k key) = true) := fun right =>
    prob_congr fun key => by rw [(C120_gcm_runs k m A right key).2]
  have e2 : ∀ right, prob (fun π => play (gcmScheme permOracle m) right π A [] = true) =
      prob (fun π : Equiv.Perm (BitVec 128) => (aesFromGuesser m right A).run π = true) := fun right =>
    prob_congr fun π => by
      rw [play_congr (perm_enc m π) (perm_dec m π), ← guessTest_run (gcm_local m)]
      rfl
  rw [e1, e1]
  rw [e2, e2] at h1
  have h2 : ∀ right, |prob (fun key => (aesFromGuesser m right A).run (aesFunction k key) = true) -
    prob (fun π : Equiv.Perm (BitVec 128) => (aesFromGuesser m right A).run π = true)| ≤ aesAdvantage k (aesFromGuesser m right A) :=
    fun right => le_refl _
  have h3 := abs_le.mp (h2 false)
  have h4 := abs_le.mp (h2 true)
  have h5 := abs_le.mp h1
  rw [abs_le]
  constructor <;> linarith [h3.1, h3.2, h4.1, h4.2, h5.1, h5.2]

/-! ## ChaCha20-Poly1305 -/

/-- Where the block function is evaluated: nonce and counter. -/
abbrev ChaChaPoint := {n : Bytes // n.length = 12} × U32
/-- Its values. -/
abbrev ChaChaBlock := {b : Bytes // b.length = 64}
/-- The keys. -/
abbrev ChaChaKey := {key : Bytes // key.length = 32}

instance : Inhabited ChaChaBlock := ⟨⟨zeros 64, by simp⟩⟩

/-- RFC 8439: the ChaCha20 block function under a key. -/
def chachaFunction (key : ChaChaKey) (x : ChaChaPoint) : ChaChaBlock :=
  ⟨Spec.ChaCha20.block key.1 x.2 x.1.1, Proofs.ChaCha20.spec_block_length ..⟩

/-- The blocks of a call: the counters `0, …, blocks`. -/
def ccpPoints (nonce : Bytes) (len : Nat) : List ChaChaPoint :=
  if h : nonce.length = 12 then (List.range ((len + 63) / 64 + 1)).map fun i => (⟨nonce, h⟩, BitVec.ofNat 32 i) else []

/-- How many they are. -/
def ccpCost (len : Nat) : Nat := (len + 63) / 64 + 1

/-- ChaCha20-Poly1305 of the crate under a random key. -/
abbrev chachaPoly (m : Mode) : Scheme ChaChaKey := withKeys (aeadScheme ccpAead m) 32

/-- ChaCha20-Poly1305 over a block function. -/
def ccpOver (m : Mode) : Scheme (ChaChaPoint → ChaChaBlock) where
  enc F := (ccpScheme m).enc fun n i => F (n, i)
  dec F := (ccpScheme m).dec fun n i => F (n, i)

/-- How well `D` tells the ChaCha20 block function under a random key from a random function. -/
noncomputable abbrev chachaAdvantage (D : Distinguisher ChaChaPoint ChaChaBlock) : ℚ :=
  advantage chachaFunction (fun F : ChaChaPoint → ChaChaBlock => F) D

theorem processLoopWith_congr (m : Mode) (b b' : U32 → Bytes) (pairs : List (Bytes × Bytes)) (i : Nat)
    (h : ∀ j, i ≤ j → j < i + pairs.length → b (BitVec.ofNat 32 j) = b' (BitVec.ofNat 32 j)) :
    processLoopWith m b (BitVec.ofNat 32 i) pairs = processLoopWith m b' (BitVec.ofNat 32 i) pairs := by
  induction pairs generalizing i with
  | nil => rfl
  | cons p pairs ih =>
    obtain ⟨inp, out⟩ := p
    unfold processLoopWith
    unfold rangeNext
    cases hn : addC m (BitVec.ofNat 32 i) 1 with
    | none => rfl
    | some next =>
      have e : next = BitVec.ofNat 32 (i + 1) := by
        unfold addC at hn
        split at hn
        · cases hn; rw [BitVec.ofNat_add]; rfl
        · cases m
          · cases hn
          · cases hn; rw [BitVec.ofNat_add]; rfl
      subst e
      simp only [Option.bind_eq_bind, Option.bind_some, Option.map_some]
      rw [ih (i + 1) (fun j h1 h2 => h j (by omega) (by simp only [List.length_cons]; omega)),
        h i (le_refl _) (by simp)]

theorem ccp_local (m : Mode) : Local (ccpOver m) ccpPoints := by
  have key : ∀ (F F' : ChaChaPoint → ChaChaBlock) (nonce : Bytes) (l : Nat) (hn : nonce.length = 12),
      (∀ x ∈ ccpPoints nonce l, F x = F' x) → ∀ i, i ≤ (l + 63) / 64 →
      (F (⟨nonce, hn⟩, BitVec.ofNat 32 i)).1 = (F' (⟨nonce, hn⟩, BitVec.ofNat 32 i)).1 := by
    intro F F' nonce l hn h i hi
    rw [h]
    unfold ccpPoints
    rw [dif_pos hn]
    exact List.mem_map.mpr ⟨i, List.mem_range.mpr (by omega), rfl⟩
  have proc : ∀ (F F' : ChaChaPoint → ChaChaBlock) (nonce : Bytes) (input output : Bytes) (hn : nonce.length = 12),
      (∀ x ∈ ccpPoints nonce input.length, F x = F' x) →
      processWith m (fun i => (F (⟨nonce, hn⟩, i)).1) input output = processWith m (fun i => (F' (⟨nonce, hn⟩, i)).1) input output := by
    intro F F' nonce input output hn h
    unfold processWith
    congr 1
    refine processLoopWith_congr m _ _ _ 1 fun j h1 h2 => key F F' nonce _ hn h j ?_
    rw [List.length_zip, chunks_length (by decide)] at h2
    omega
  constructor
  · intro F F' msg nonce data buffer h
    show encryptWith m (setupOf _) msg nonce data buffer = encryptWith m (setupOf _) msg nonce data buffer
    unfold encryptWith
    by_cases hn : nonce.length = 12
    · rw [setupOf_some hn, setupOf_some hn]
      simp only [Option.bind_eq_bind, Option.bind_some]
      rw [proc F F' nonce msg buffer hn h, show (0 : U32) = BitVec.ofNat 32 0 from rfl, key F F' nonce _ hn h 0 (by omega)]
    · unfold setupOf
      rw [dif_neg hn, dif_neg hn]
  · intro F F' ct nonce data t buffer h
    show decryptWith m (setupOf _) ct nonce data t buffer = decryptWith m (setupOf _) ct nonce data t buffer
    unfold decryptWith
    by_cases hn : nonce.length = 12
    · rw [setupOf_some hn, setupOf_some hn]
      simp only [Option.bind_eq_bind, Option.bind_some]
      rw [proc F F' nonce ct buffer hn h, show (0 : U32) = BitVec.ofNat 32 0 from rfl, key F F' nonce _ hn h 0 (by omega)]
    · unfold setupOf
      rw [dif_neg hn, dif_neg hn]

theorem ccpPoints_length (nonce : Bytes) (l : Nat) : (ccpPoints nonce l).length ≤ ccpCost l := by
  unfold ccpPoints ccpCost
  split <;> simp

theorem setup_code (key : ChaChaKey) :
    setupOf (fun n i => chachaFunction key (n, i)) = fun n => (ChaCha20.new key.1 n).map ChaCha20.block := by
  funext n
  unfold setupOf
  by_cases h : n.length = 12
  · rw [dif_pos h]
    have e : ChaCha20.new key.1 n = some (ChaCha20.setupState key.1 n) := by
      unfold ChaCha20.new; simp only [key.2, h]; rfl
    rw [e, Option.map_some]
    exact congrArg some (funext fun c => (Proofs.ChaCha20.block_eq key.1 n key.2 h c).symm)
  · rw [dif_neg h, Proofs.ChaCha20.new_none key.1 n (by tauto)]
    rfl

theorem chachaPoly_eq (m : Mode) (key : ChaChaKey) :
    (chachaPoly m).enc key = (ccpOver m).enc (chachaFunction key) ∧ (chachaPoly m).dec key = (ccpOver m).dec (chachaFunction key) := by
  have h2 : ccpAead.new key.1 = some key.1 := by
    show Poly1305.new key.1 = _
    unfold Poly1305.new
    simp only [key.2]; rfl
  constructor
  · funext msg nonce data buffer
    show (ccpAead.new key.1).bind _ = encryptWith m (setupOf _) msg nonce data buffer
    rw [h2, setup_code]
    exact (C81_with_chacha20 m key.1 msg nonce data buffer []).1.symm
  · funext ct nonce data t buffer
    show (ccpAead.new key.1).bind _ = decryptWith m (setupOf _) ct nonce data t buffer
    rw [h2, setup_code]
    exact (C81_with_chacha20 m key.1 ct nonce data buffer t).2.symm

/-- The distinguisher for the ChaCha20 block function made of an attack that forges. -/
def chachaFromForger (m : Mode) (right : Bool) (A : Adversary) : Distinguisher ChaChaPoint ChaChaBlock :=
  forgeryTest (ccpOver m) ccpPoints right A []

/-- The distinguisher for the ChaCha20 block function made of an attack that tells messages apart. -/
def chachaFromGuesser (m : Mode) (right : Bool) (A : Adversary) : Distinguisher ChaChaPoint ChaChaBlock :=
  guessTest (ccpOver m) ccpPoints right A []

/-- The distinguishers ask for as many blocks as the attack makes the code compute: one for each call and one for each 64 bytes of
the message. -/
theorem C120_ccp_distinguisher (m : Mode) (A : Adversary) (s : Nat) (hs : Costs ccpCost A s) (right : Bool) :
    (chachaFromForger m right A).Asks s ∧ (chachaFromGuesser m right A).Asks s :=
  ⟨(tests_asks ccpCost ccpPoints_length right A s hs []).2, (tests_asks ccpCost ccpPoints_length right A s hs []).1⟩

/-- Run on the ChaCha20 block function under a key, the distinguishers report how the attack on ChaCha20-Poly1305 of the crate under
that key ends. -/
theorem C120_ccp_runs (m : Mode) (A : Adversary) (right : Bool) (key : ChaChaKey) :
    ((chachaFromForger m right A).run (chachaFunction key) = true ↔ forges (chachaPoly m) right key A []) ∧
    (chachaFromGuesser m right A).run (chachaFunction key) = play (chachaPoly m) right key A [] := by
  rw [forges_congr (chachaPoly_eq m key).1 (chachaPoly_eq m key).2, play_congr (chachaPoly_eq m key).1 (chachaPoly_eq m key).2]
  exact ⟨forgeryTest_run (ccp_local m) right _ A [], guessTest_run (ccp_local m) right _ A []⟩

theorem prob_uncurry (P : (ChaChaPoint → ChaChaBlock) → Prop) :
    prob P = prob (fun G : BlockSource => P fun x => G x.1 x.2) := by
  unfold prob
  have e := Nat.card_congr (Equiv.curry {n : Bytes // n.length = 12} U32 ChaChaBlock)
  rw [show Nat.card (ChaChaPoint → ChaChaBlock) = Nat.card BlockSource from e]
  congr 2
  rw [← Set.ncard_image_of_injective _ (Equiv.curry {n : Bytes // n.length = 12} U32 ChaChaBlock).injective]
  congr 1
  ext G
  constructor
  · rintro ⟨F, hF, rfl⟩
    exact hF
  · intro hG
    exact ⟨fun x => G x.1 x.2, hG, rfl⟩

/-- **Forging ChaCha20-Poly1305 of the crate under a random key.** An adaptive attack with `a` attempts of at most `n` blocks of 16
bytes each succeeds with at most the advantage with which the distinguisher made of it tells the ChaCha20 block function
from a random function, plus `1480 a n / 2^106`. -/
theorem C120_ccp_forgery (m : Mode) (A : Adversary) (a n : Nat) (hn : n ≤ 2 ^ 34 - 16) (hA : Within authCount n A a) (right : Bool) :
    prob (fun key => forges (chachaPoly m) right key A []) ≤
      chachaAdvantage (chachaFromForger m right A) + a * (1480 * n) / 2 ^ 106 := by
  have h1 := C90_ccp_adaptive_forgery m A a n hn hA right
  have e1 : prob (fun key => forges (chachaPoly m) right key A []) =
      prob (fun key => (chachaFromForger m right A).run (chachaFunction key) = true) :=
    prob_congr fun key => (C120_ccp_runs m A right key).1.symm
  have e2 : prob (fun G => forges (ccpScheme m) right G A []) =
      prob (fun F : ChaChaPoint → ChaChaBlock => (chachaFromForger m right A).run F = true) := by
    rw [prob_uncurry]
    refine prob_congr fun G => ?_
    have := forgeryTest_run (ccp_local m) right (fun x => G x.1 x.2) A []
    rw [show chachaFromForger m right A = forgeryTest (ccpOver m) ccpPoints right A [] from rfl, this]
    rw [forges_congr (S := ccpScheme m) (S' := ccpOver m) (k := G) (k' := fun x => G x.1 x.2) rfl rfl]
  rw [e1]
  rw [e2] at h1
  have h2 := le_abs_self (prob (fun key => (chachaFromForger m right A).run (chachaFunction key) = true) -
    prob (fun F : ChaChaPoint → ChaChaBlock => (chachaFromForger m right A).run F = true))
  change _ ≤ chachaAdvantage (chachaFromForger m right A) at h2
  linarith

/-- **Reading ChaCha20-Poly1305 of the crate under a random key.** Such an attack tells the first messages of its pairs from the
second ones with at most the advantages of the two distinguishers made of it, plus `2 * 1480 a n / 2^106`. -/
theorem C120_ccp_confidentiality (m : Mode) (A : Adversary) (a n : Nat) (hn : n ≤ 2 ^ 34 - 16) (hA : Within authCount n A a) :
    |prob (fun key => play (chachaPoly m) false key A [] = true) - prob (fun key => play (chachaPoly m) true key A [] = true)| ≤
      chachaAdvantage (chachaFromGuesser m false A) + chachaAdvantage (chachaFromGuesser m true A) +
      2 * (a * (1480 * n) / 2 ^ 106) := by
  have h1 := C90_ccp_adaptive_confidentiality m A a n hn hA
  have e1 : ∀ right, prob (fun key => play (chachaPoly m) right key A [] = true) =
      prob (fun key => (chachaFromGuesser m right A).run (chachaFunction key) = true) := fun right =>
    prob_congr fun key => by rw [(C120_ccp_runs m A right key).2]
  have e2 : ∀ right, prob (fun G => play (ccpScheme m) right G A [] = true) =
      prob (fun F : ChaChaPoint → ChaChaBlock => (chachaFromGuesser m right A).run F = true) := by
    intro right
    rw [prob_uncurry]
    refine prob_congr fun G => ?_
    have := guessTest_run (ccp_local m) right (fun x => G x.1 x.2) A []
    rw [show chachaFromGuesser m right A = guessTest (ccpOver m) ccpPoints right A [] from rfl, this]
    rw [play_congr (S := ccpScheme m) (S' := ccpOver m) (k := G) (k' := fun x => G x.1 x.2) rfl rfl]
  rw [e1, e1]
  rw [e2, e2] at h1
  have h2 : ∀ right, |prob (fun key => (chachaFromGuesser m right A).run (chachaFunction key) = true) -
    prob (fun F : ChaChaPoint → ChaChaBlock => (chachaFromGuesser m right A).run F = true)| ≤
      chachaAdvantage (chachaFromGuesser m right A) := fun right => le_refl _
  have h3 := abs_le.mp (h2 false)
  have h4 := abs_le.mp (h2 true)
  have h5 := abs_le.mp h1
  rw [abs_le]
  constructor <;> linarith [h3.1, h3.2, h4.1, h4.2, h5.1, h5.2]

/-! ## A concrete case -/

theorem flipLastBit_costs : Costs gcmCost flipLastBit 8 ∧ Costs ccpCost flipLastBit 4 := by
  constructor
  · refine ⟨4, by decide, fun r => ?_⟩
    match r with
    | none => trivial
    | some (ct, t) =>
      have h : (xorBytes (ct.take 20) (zeros 19 ++ [1])).length ≤ 20 := by simp
      refine ⟨4 - gcmCost (xorBytes (ct.take 20) (zeros 19 ++ [1])).length, ?_, fun _ => trivial⟩
      unfold gcmCost
      omega
  · refine ⟨2, by decide, fun r => ?_⟩
    match r with
    | none => trivial
    | some (ct, t) =>
      have h : (xorBytes (ct.take 20) (zeros 19 ++ [1])).length ≤ 20 := by simp
      refine ⟨2 - ccpCost (xorBytes (ct.take 20) (zeros 19 ++ [1])).length, ?_, fun _ => trivial⟩
      unfold ccpCost
      omega

example : prob (fun key => forges (aesGcm .aes256 .release) true key flipLastBit []) ≤
    aesAdvantage .aes256 (aesFromForger .release true flipLastBit) + 1 * 4 / 2 ^ 128 + 8 * (8 - 1) / 2 ^ 129 := by
  simpa using C120_gcm_forgery .aes256 .release flipLastBit 1 4 8 (by norm_num) flipLastBit_within flipLastBit_costs.1 true

example : prob (fun key => forges (chachaPoly .debug) false key flipLastBit []) ≤
    chachaAdvantage (chachaFromForger .debug false flipLastBit) + 1 * (1480 * 4) / 2 ^ 106 := by
  simpa using C120_ccp_forgery .debug flipLastBit 1 4 (by norm_num) flipLastBit_within false

end CryptoPure.Props
