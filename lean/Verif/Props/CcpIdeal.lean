import Mathlib.Data.Fintype.Vector
import Verif.Props.ForgeryPoly
import Verif.Props.GcmIdeal

/-! # C81, C82: ChaCha20-Poly1305 over a random block function

The claims count the functions from (nonce, counter) to 64-byte blocks with which the algorithm of the code, run with that
function in place of the ChaCha20 block function, behaves in a given way. -/

namespace CryptoPure.Props
open CryptoPure.Model CryptoPure.Model.Poly1305
open Proofs.Poly1305 (frozen)

attribute [local irreducible] toLE CryptoPure.Model.ChaCha20.block

/-! ## The code with the block function as a parameter -/

/-- The loop of `process`, src/poly1305.rs:64-73, for an arbitrary block function. -/
def processLoopWith (m : Mode) (block : U32 → Bytes) : U32 → List (Bytes × Bytes) → Option (List Bytes)
  | i, [] => do
    let _ ← rangeNext m i
    some []
  | i, (inp, out) :: rest => do
    let (i, next) ← rangeNext m i
    let blk := block i
    let out := List.zipWith (fun b (p : U8 × U8) => p.1 ^^^ b) blk (inp.zip out)
    let rest ← processLoopWith m block next rest
    some (out :: rest)

/-- `process`, src/poly1305.rs:63-74. -/
def processWith (m : Mode) (block : U32 → Bytes) (input output : Bytes) : Option Bytes := do
  let cs ← processLoopWith m block 1 ((chunks 64 input).zip (chunks 64 output))
  some cs.flatten

/-- `encrypt`, src/poly1305.rs:30-35; `setup` takes the place of `ChaCha20::new(key, ·)`. -/
def encryptWith (m : Mode) (setup : Bytes → Option (U32 → Bytes)) (input nonce data output : Bytes) : Option (Bytes × Bytes) := do
  assert (input.length == output.length)
  let block ← setup nonce
  let output ← processWith m block input output
  let t ← poly1305 m ((block 0).take 32) data output
  some (output, t)

/-- `decrypt`, src/poly1305.rs:42-59. -/
def decryptWith (m : Mode) (setup : Bytes → Option (U32 → Bytes)) (input nonce data tag' output : Bytes) : Option (Bytes × Bool) := do
  assert (output.length == input.length)
  let block ← setup nonce
  let expected ← poly1305 m ((block 0).take 32) data input
  let ok ← Util.verify16 expected tag'
  if ok then do
    let output ← processWith m block input output
    some (output, true)
  else some (output, false)

theorem processLoopWith_eq (m : Mode) (cipher : List U32) (i : U32) (l : List (Bytes × Bytes)) :
    processLoop m cipher i l = processLoopWith m (ChaCha20.block cipher) i l := by
  induction l generalizing i with
  | nil => rfl
  | cons p l ih =>
    obtain ⟨a, b⟩ := p
    unfold processLoop processLoopWith
    congr 1
    funext x
    simp only [ih]

/-- With ChaCha20 as block function these are the functions of the model. -/
theorem C81_with_chacha20 (m : Mode) (key input nonce data output t : Bytes) :
    encryptWith m (fun nonce => (ChaCha20.new key nonce).map ChaCha20.block) input nonce data output =
      encrypt m key input nonce data output ∧
    decryptWith m (fun nonce => (ChaCha20.new key nonce).map ChaCha20.block) input nonce data t output =
      decrypt m key input nonce data t output := by
  constructor
  · unfold encryptWith encrypt process processWith tag polyKeyGen
    cases h : ChaCha20.new key nonce with
    | none => simp only [Option.map_none, h]; rfl
    | some c => simp only [Option.map_some, h, processLoopWith_eq]; rfl
  · unfold decryptWith decrypt process processWith tag polyKeyGen
    cases h : ChaCha20.new key nonce with
    | none => simp only [Option.map_none, h]; rfl
    | some c => simp only [Option.map_some, h, processLoopWith_eq]; rfl

/-! ## Random block functions -/

/-- Functions from nonces (12 bytes) and counters to blocks (64 bytes). -/
abbrev BlockSource := {n : Bytes // n.length = 12} → U32 → {b : Bytes // b.length = 64}

/-- Like `ChaCha20::new` this panics for nonces that do not have 12 bytes. -/
def setupOf (G : BlockSource) (nonce : Bytes) : Option (U32 → Bytes) :=
  if h : nonce.length = 12 then some (fun i => (G ⟨nonce, h⟩ i).1) else none

theorem setupOf_some {nonce : Bytes} (h : nonce.length = 12) (G : BlockSource) :
    setupOf G nonce = some (fun i => (G ⟨nonce, h⟩ i).1) := dif_pos h

/-- Encryption of the pieces of a message with counters `c, c+1, …`. -/
def cryptWith (block : U32 → Bytes) : U32 → List Bytes → Bytes
  | _, [] => []
  | c, b :: bs => xorBytes b (block c) ++ cryptWith block (c + 1) bs

theorem processLoopWith_spec (m : Mode) (block : U32 → Bytes) (pairs : List (Bytes × Bytes)) (hp : ∀ p ∈ pairs, p.1.length = p.2.length)
    (i : U32) :
    ((m = .release ∨ i.toNat + pairs.length + 1 < 2 ^ 32) →
      ∃ cs, processLoopWith m block i pairs = some cs ∧ cs.flatten = cryptWith block i (pairs.map Prod.fst)) ∧
    (¬ (m = .release ∨ i.toNat + pairs.length + 1 < 2 ^ 32) → processLoopWith m block i pairs = none) := by
  have hnext : ∀ i : U32, (m = .release ∨ i.toNat + 1 < 2 ^ 32) → rangeNext m i = some (i, i + 1) := by
    intro i h
    unfold rangeNext
    rcases h with h | h
    · subst h; simp
    · rw [addC_ok _ _ _ (by change i.toNat + 1 < 2 ^ 32; exact h)]; simp
  have hfail : ∀ i : U32, m ≠ .release → ¬ (i.toNat + 1 < 2 ^ 32) → rangeNext m i = none := by
    intro i h1 h2
    cases m
    · unfold rangeNext
      rw [addC_debug_overflow _ _ (by change ¬ (i.toNat + 1 < 2 ^ 32); exact h2)]
      rfl
    · exact absurd rfl h1
  induction pairs generalizing i with
  | nil =>
    constructor
    · intro h
      refine ⟨[], ?_, rfl⟩
      rw [processLoopWith, hnext i (by simpa using h)]
      rfl
    · intro h
      rw [not_or] at h
      rw [processLoopWith, hfail i h.1 (by simpa using h.2)]
      rfl
  | cons p ps ih =>
    obtain ⟨inp, out⟩ := p
    have hl := hp (inp, out) (by simp)
    obtain ⟨ih1, ih2⟩ := ih (fun q hq => hp q (by simp [hq])) (i + 1)
    have hi1 : i.toNat + 1 < 2 ^ 32 → (i + 1).toNat = i.toNat + 1 := by
      intro h
      rw [BitVec.toNat_add]
      change (i.toNat + 1) % 2 ^ 32 = _
      omega
    constructor
    · intro h
      have h' : m = .release ∨ i.toNat + 1 < 2 ^ 32 := by
        rcases h with h | h
        · exact .inl h
        · right; simp at h; omega
      have h'' : m = .release ∨ (i + 1).toNat + ps.length + 1 < 2 ^ 32 := by
        rcases h with h | h
        · exact .inl h
        · right; simp at h; rw [hi1 (by omega)]; omega
      obtain ⟨cs, hcs, hf⟩ := ih1 h''
      refine ⟨xorBytes inp (block i) :: cs, ?_, ?_⟩
      · rw [processLoopWith, hnext i h', Option.bind_eq_bind, Option.bind_some]
        simp only [Proofs.Poly1305.zipWith_pairs _ _ _ hl, hcs]
        rfl
      · rw [List.flatten_cons, hf, List.map_cons, cryptWith]
    · intro h
      rw [not_or] at h
      by_cases h1 : i.toNat + 1 < 2 ^ 32
      · have h'' : ¬ (m = .release ∨ (i + 1).toNat + ps.length + 1 < 2 ^ 32) := by
          rw [not_or]
          refine ⟨h.1, ?_⟩
          rw [hi1 h1]
          have := h.2
          simp at this
          omega
        rw [processLoopWith, hnext i (.inr h1), Option.bind_eq_bind, Option.bind_some]
        simp only [ih2 h'']
        rfl
      · rw [processLoopWith, hfail i h.1 h1]
        rfl

theorem processWith_spec (m : Mode) (block : U32 → Bytes) (input output : Bytes) (hl : input.length = output.length) :
    processWith m block input output =
      if m = .release ∨ (input.length + 63) / 64 < 2 ^ 32 - 2 then some (cryptWith block 1 (chunks 64 input)) else none := by
  obtain ⟨hp1, hp2⟩ := Proofs.Poly1305.chunks_pairs 64 (by omega) input output hl
  have hlen : ((chunks 64 input).zip (chunks 64 output)).length = (input.length + 63) / 64 := by
    have := congrArg List.length hp1
    rw [List.length_map] at this
    rw [this, chunks_length (by omega)]; rfl
  obtain ⟨h1, h2⟩ := processLoopWith_spec m block _ (fun p hp => (hp2 p hp).1) 1
  rw [hlen] at h1 h2
  have e2 : (1 : U32).toNat = 1 := rfl
  rw [e2] at h1 h2
  unfold processWith
  by_cases hm : m = .release ∨ (input.length + 63) / 64 < 2 ^ 32 - 2
  · obtain ⟨cs, e, hf⟩ := h1 (hm.imp id (by omega))
    rw [if_pos hm, e, ← hp1, ← hf]
    rfl
  · rw [if_neg hm, h2 (fun h => hm (h.imp id (by omega)))]
    rfl

theorem cryptWith_congr {P P' : U32 → Bytes} (x x' : Bytes) (hx : x.length = x'.length) (i : Nat)
    (h : ∀ j, 64 * j < x.length → xorBytes ((x'.drop (64 * j)).take 64) (P' (BitVec.ofNat 32 (i + j))) =
      xorBytes ((x.drop (64 * j)).take 64) (P (BitVec.ofNat 32 (i + j)))) :
    cryptWith P' (BitVec.ofNat 32 i) (chunks 64 x') = cryptWith P (BitVec.ofNat 32 i) (chunks 64 x) := by
  induction hk : x.length using Nat.strongRecOn generalizing x x' i with
  | _ k ih =>
    subst hk
    by_cases h0 : x = []
    · subst h0
      have : x' = [] := List.length_eq_zero_iff.mp (by simpa using hx.symm)
      subst this
      rfl
    · have hpos : 0 < x.length := List.length_pos_iff.mpr h0
      have h0' : x' ≠ [] := by rintro rfl; simp at hx; exact h0 hx
      have hi : BitVec.ofNat 32 i + 1 = BitVec.ofNat 32 (i + 1) := by rw [BitVec.ofNat_add]; rfl
      rw [chunks_of_ne_nil (by omega) h0, chunks_of_ne_nil (by omega) h0', cryptWith, cryptWith, hi,
        ih (x.drop 64).length (by simp; omega) (x.drop 64) (x'.drop 64) (by simp [hx]) (i + 1) ?_ rfl]
      · have := h 0 (by omega)
        rw [Nat.mul_zero, List.drop_zero, List.drop_zero, Nat.add_zero] at this
        rw [this]
      · intro j hj
        have := h (j + 1) (by simp at hj; omega)
        rw [List.drop_drop, List.drop_drop, show 64 + 64 * j = 64 * (j + 1) by ring, show i + 1 + j = i + (j + 1) by omega]
        exact this

theorem cryptWith_length {P : U32 → Bytes} (hP : ∀ i, (P i).length = 64) (x : Bytes) (i : U32) :
    (cryptWith P i (chunks 64 x)).length = x.length := by
  induction hk : x.length using Nat.strongRecOn generalizing x i with
  | _ k ih =>
    subst hk
    by_cases h0 : x = []
    · subst h0; rfl
    · have hpos : 0 < x.length := List.length_pos_iff.mpr h0
      rw [chunks_of_ne_nil (by omega) h0, cryptWith, List.length_append, ih (x.drop 64).length (by simp; omega) _ _ rfl,
        xorBytes_length, hP]
      simp; omega

/-- Exact behaviour of `encryptWith`. -/
theorem encryptWith_spec (m : Mode) (G : BlockSource) (input nonce data output : Bytes) (hn : nonce.length = 12)
    (hl : input.length = output.length) (hm : m = .release ∨ (input.length + 63) / 64 < 2 ^ 32 - 2) :
    encryptWith m (setupOf G) input nonce data output =
      (poly1305 m ((G ⟨nonce, hn⟩ 0).1.take 32) data (cryptWith (fun i => (G ⟨nonce, hn⟩ i).1) 1 (chunks 64 input))).map
        (fun t => (cryptWith (fun i => (G ⟨nonce, hn⟩ i).1) 1 (chunks 64 input), t)) := by
  unfold encryptWith
  rw [show (input.length == output.length) = true by simpa using hl, assert_true, setupOf_some hn]
  simp only [Option.bind_eq_bind, Option.bind_some]
  rw [processWith_spec m _ input output hl, if_pos hm]
  simp only [Option.bind_some]
  cases poly1305 m ((G ⟨nonce, hn⟩ 0).1.take 32) data (cryptWith (fun i => (G ⟨nonce, hn⟩ i).1) 1 (chunks 64 input)) <;> rfl

theorem encryptWith_none (m : Mode) (G : BlockSource) (input nonce data output : Bytes)
    (h : ¬ (nonce.length = 12 ∧ input.length = output.length ∧ (m = .release ∨ (input.length + 63) / 64 < 2 ^ 32 - 2))) :
    encryptWith m (setupOf G) input nonce data output = none := by
  unfold encryptWith
  by_cases hl : input.length = output.length
  · rw [show (input.length == output.length) = true by simpa using hl, assert_true]
    by_cases hn : nonce.length = 12
    · rw [setupOf_some hn]
      simp only [Option.bind_eq_bind, Option.bind_some]
      rw [processWith_spec m _ input output hl, if_neg (fun hm => h ⟨hn, hl, hm⟩)]
      rfl
    · unfold setupOf
      rw [dif_neg hn]; rfl
  · rw [show (input.length == output.length) = false by simpa using hl]; rfl

/-! ## C81 -/

/-- Block `j` of the difference of two messages, padded with zeros. -/
def diffBlock64 (d : Bytes) (j : Nat) : Bytes :=
  let s := (d.drop (64 * j)).take 64
  s ++ zeros (64 - s.length)

theorem diffBlock64_length (d : Bytes) (j : Nat) : (diffBlock64 d j).length = 64 := by
  unfold diffBlock64; simp

/-- Adds the differences of the two messages to the blocks with counters 1, 2, … of one nonce. -/
def maskOne (q : Choice) (G : BlockSource) : BlockSource := fun n i =>
  if n.1 = q.nonce ∧ i ≠ 0 then
    ⟨xorBytes (G n i).1 (diffBlock64 (xorBytes q.msg q.msg') (i.toNat - 1)), by
      rw [xorBytes_length, (G n i).2, diffBlock64_length]; rfl⟩
  else G n i

theorem maskOne_involutive (q : Choice) : Function.Involutive (maskOne q) := by
  intro G
  funext n i
  unfold maskOne
  by_cases h : n.1 = q.nonce ∧ i ≠ 0
  · simp only [if_pos h]
    exact Subtype.ext (xorBytes_cancel _ _ (by rw [(G n i).2, diffBlock64_length]))
  · simp only [if_neg h]

theorem maskOne_other (q : Choice) (G : BlockSource) (n : {n : Bytes // n.length = 12}) (h : n.1 ≠ q.nonce) : maskOne q G n = G n := by
  funext i
  unfold maskOne
  rw [if_neg (fun h' => h h'.1)]

/-- Encryption under a nonce uses the blocks of that nonce only. -/
theorem encryptWith_local (m : Mode) {G G' : BlockSource} (nonce : Bytes) (h : ∀ hn : nonce.length = 12, G' ⟨nonce, hn⟩ = G ⟨nonce, hn⟩)
    (msg data output : Bytes) :
    encryptWith m (setupOf G') msg nonce data output = encryptWith m (setupOf G) msg nonce data output := by
  have : setupOf G' nonce = setupOf G nonce := by
    unfold setupOf
    split
    · rename_i hn; rw [h hn]
    · rfl
  unfold encryptWith
  rw [this]

theorem ofNat_toNat_ne {j : Nat} (h : 1 + j < 2 ^ 32) : (BitVec.ofNat 32 (1 + j)).toNat = 1 + j ∧ BitVec.ofNat 32 (1 + j) ≠ (0 : U32) := by
  have e : (BitVec.ofNat 32 (1 + j)).toNat = 1 + j := by rw [BitVec.toNat_ofNat, Nat.mod_eq_of_lt h]
  refine ⟨e, fun h0 => ?_⟩
  rw [h0] at e
  change 0 = 1 + j at e
  omega

theorem maskOne_same (q : Choice) (hl : q.msg.length = q.msg'.length) (hb : q.msg.length ≤ 64 * (2 ^ 32 - 1)) (G : BlockSource) (m : Mode)
    (output : Bytes) :
    encryptWith m (setupOf (maskOne q G)) q.msg' q.nonce q.data output = encryptWith m (setupOf G) q.msg q.nonce q.data output := by
  by_cases hp : q.nonce.length = 12 ∧ q.msg.length = output.length ∧ (m = .release ∨ (q.msg.length + 63) / 64 < 2 ^ 32 - 2)
  · obtain ⟨hn, ho, hm⟩ := hp
    rw [encryptWith_spec m G _ _ _ _ hn ho hm, encryptWith_spec m (maskOne q G) _ _ _ _ hn (hl ▸ ho) (hl ▸ hm)]
    have h0 : maskOne q G ⟨q.nonce, hn⟩ 0 = G ⟨q.nonce, hn⟩ 0 := by
      unfold maskOne
      rw [if_neg (fun h => h.2 rfl)]
    have hc : cryptWith (fun i => (maskOne q G ⟨q.nonce, hn⟩ i).1) 1 (chunks 64 q.msg') =
        cryptWith (fun i => (G ⟨q.nonce, hn⟩ i).1) 1 (chunks 64 q.msg) := by
      refine cryptWith_congr q.msg q.msg' hl 1 fun j hj => ?_
      obtain ⟨e1, e2⟩ := ofNat_toNat_ne (j := j) (by omega)
      have hd : (maskOne q G ⟨q.nonce, hn⟩ (BitVec.ofNat 32 (1 + j))).1 =
          xorBytes (G ⟨q.nonce, hn⟩ (BitVec.ofNat 32 (1 + j))).1 (diffBlock64 (xorBytes q.msg q.msg') j) := by
        unfold maskOne
        rw [if_pos ⟨rfl, e2⟩]
        simp only [e1]
        rw [show 1 + j - 1 = j by omega]
      have hs : ((xorBytes q.msg q.msg').drop (64 * j)).take 64 =
          xorBytes ((q.msg.drop (64 * j)).take 64) ((q.msg'.drop (64 * j)).take 64) := by
        unfold xorBytes
        rw [List.drop_zipWith, List.take_zipWith]
      rw [hd]
      unfold diffBlock64
      simp only [hs]
      rw [xor_mask _ _ _ (by simp [hl]) (by rw [(G _ _).2]; simp)]
      rw [List.take_of_length_le (l := (G _ _).1) (by rw [(G _ _).2]; simp; omega)]
    rw [hc, h0]
  · rw [encryptWith_none m G _ _ _ _ hp, encryptWith_none m (maskOne q G) _ _ _ _ (by rw [← hl]; exact hp)]

/-- C81. ChaCha20-Poly1305 over a random block function hides messages perfectly: given any number of encryptions under
pairwise different nonces, with two candidate messages of equal length (at most `2^38 - 64` bytes) each, there is a permutation
of the set of all block functions that turns the ciphertexts and tags of the one list of messages into those of the other. -/
theorem C81_ccp_hides_messages (qs : List Choice) (hd : (qs.map Choice.nonce).Nodup) (hl : ∀ q ∈ qs, q.msg.length = q.msg'.length)
    (hb : ∀ q ∈ qs, q.msg.length ≤ 64 * (2 ^ 32 - 1)) :
    ∃ σ : Equiv.Perm BlockSource, ∀ G, ∀ q ∈ qs, ∀ (m : Mode) (output : Bytes),
      encryptWith m (setupOf (σ G)) q.msg' q.nonce q.data output = encryptWith m (setupOf G) q.msg q.nonce q.data output := by
  suffices h : ∃ σ : Equiv.Perm BlockSource, (∀ G (n : {n : Bytes // n.length = 12}), n.1 ∉ qs.map Choice.nonce → σ G n = G n) ∧
      ∀ G, ∀ q ∈ qs, ∀ (m : Mode) (output : Bytes),
        encryptWith m (setupOf (σ G)) q.msg' q.nonce q.data output = encryptWith m (setupOf G) q.msg q.nonce q.data output by
    obtain ⟨σ, -, h⟩ := h
    exact ⟨σ, h⟩
  induction qs with
  | nil => exact ⟨Equiv.refl _, fun _ _ _ => rfl, fun _ q hq => absurd hq (by simp)⟩
  | cons q qs ih =>
    rw [List.map_cons, List.nodup_cons] at hd
    obtain ⟨σ, h1, h2⟩ := ih hd.2 (fun q hq => hl q (by simp [hq])) (fun q hq => hb q (by simp [hq]))
    refine ⟨σ.trans (maskOne_involutive q).toPerm, ?_, ?_⟩
    · intro G n hn
      rw [List.map_cons, List.mem_cons, not_or] at hn
      show maskOne q (σ G) n = G n
      rw [maskOne_other q _ n hn.1, h1 G n hn.2]
    · intro G q' hq' m output
      show encryptWith m (setupOf (maskOne q (σ G))) _ _ _ _ = _
      rcases List.mem_cons.mp hq' with rfl | hq
      · rw [maskOne_same q' (hl q' (by simp)) (hb q' (by simp))]
        exact encryptWith_local m _ (fun hn => h1 G ⟨q'.nonce, hn⟩ hd.1) _ _ _
      · have hne : q'.nonce ≠ q.nonce := fun h => hd.1 (by rw [← h]; exact List.mem_map_of_mem hq)
        rw [encryptWith_local m q'.nonce (fun hn => maskOne_other q (σ G) ⟨q'.nonce, hn⟩ hne), h2 G q' hq]

/-- C81. So whatever was observed, it arises from exactly as many block functions with the one list of messages as with the
other. -/
theorem C81_ccp_observations (qs : List Choice) (hd : (qs.map Choice.nonce).Nodup) (hl : ∀ q ∈ qs, q.msg.length = q.msg'.length)
    (hb : ∀ q ∈ qs, q.msg.length ≤ 64 * (2 ^ 32 - 1)) (m : Mode) (buffer : Choice → Bytes) (seen : Choice → Option (Bytes × Bytes)) :
    Set.ncard {G : BlockSource | ∀ q ∈ qs, encryptWith m (setupOf G) q.msg q.nonce q.data (buffer q) = seen q} =
      Set.ncard {G : BlockSource | ∀ q ∈ qs, encryptWith m (setupOf G) q.msg' q.nonce q.data (buffer q) = seen q} := by
  obtain ⟨σ, hσ⟩ := C81_ccp_hides_messages qs hd hl hb
  rw [← Set.ncard_image_of_injective _ σ.injective]
  congr 1
  ext G
  simp only [Set.mem_image, Set.mem_ofPred_eq]
  constructor
  · rintro ⟨F, hF, rfl⟩ q hq
    rw [hσ F q hq]; exact hF q hq
  · intro hG
    refine ⟨σ.symm G, fun q hq => ?_, by simp⟩
    rw [← hσ _ q hq, Equiv.apply_symm_apply]
    exact hG q hq

/-- The hypotheses of C81 for two encryptions; the encryptions succeed. -/
example (G : BlockSource) : (([⟨zeros 12, [], [1, 2, 3], [4, 5, 6]⟩, ⟨1 :: zeros 11, [9], [7], [8]⟩] : List Choice).map Choice.nonce).Nodup ∧
    (encryptWith .debug (setupOf G) [1, 2, 3] (zeros 12) [] [0, 0, 0]).isSome = true := by
  refine ⟨by decide, ?_⟩
  rw [encryptWith_spec .debug G _ _ _ _ (by simp) (by decide) (.inr (by simp)), Option.isSome_map]
  obtain ⟨v, h, -⟩ := Proofs.Poly1305.poly1305_spec ((G ⟨zeros 12, by simp⟩ 0).1.take 32) []
    (cryptWith (fun i => (G ⟨zeros 12, by simp⟩ i).1) 1 (chunks 64 [1, 2, 3])) (by rw [List.length_take, (G _ _).2]; rfl)
  rw [h .debug]; rfl

/-! ## C82 -/

/-- The second half of the one-time key is only added at the end. -/
theorem fold_constantTerm (m : Mode) (blocks : List Bytes) (f : PolyFunction) (c : Bytes) :
    blocks.foldlM (PolyFunction.process m) { f with constantTerm := c } =
      (blocks.foldlM (PolyFunction.process m) f).map (fun g => { g with constantTerm := c }) := by
  induction blocks generalizing f with
  | nil => rfl
  | cons b bs ih =>
    rw [List.foldlM_cons, List.foldlM_cons]
    unfold PolyFunction.process
    simp only [Option.bind_eq_bind]
    cases add m f.h b 1 with
    | none => rfl
    | some h =>
      simp only [Option.bind_some]
      cases mulmod m h f.r with
      | none => rfl
      | some h' =>
        simp only [Option.bind_some]
        exact ih { f with h := h' }

theorem list16' (l s : Bytes) (h : l.length = 16) : loadR (l ++ s) = loadR (l ++ zeros 16) := by
  match l, h with
  | [a, b, c, d, e, f, g, h, i, j, k, l, m, n, o, p], _ => rfl

/-- The tag is a number that depends on the first half `r` of the one-time key, plus the second half. -/
theorem poly1305_split (r data ct : Bytes) (hr : r.length = 16) :
    ∃ x, ∀ (m : Mode) (s : Bytes), s.length = 16 → poly1305 m (r ++ s) data ct = some (toLE 16 (x + leNat s)) := by
  have hg0 : Proofs.Poly1305.Good (PolyFunction.new (r ++ zeros 16)).h := ⟨List.replicate 16 0, 0, rfl, rfl, by
    intro x hx; rw [List.mem_replicate] at hx; omega, by omega,
    (by decide : Proofs.Poly1305.val (List.replicate 17 0) < 2 ^ 130 + 5 * 2 ^ 28)⟩
  have hbl : ∀ b ∈ chunks 16 (Spec.Poly1305.macData data ct), b.length = 16 := (mac_blocks data ct).1
  obtain ⟨h', e', g', -⟩ := Proofs.Poly1305.fold_process (chunks 16 (Spec.Poly1305.macData data ct)) (PolyFunction.new (r ++ zeros 16)) hg0
    (Proofs.Poly1305.loadR_length _) hbl
  refine ⟨frozen (Proofs.Poly1305.val h'), fun m s hs => ?_⟩
  have hnew : PolyFunction.new (r ++ s) = { PolyFunction.new (r ++ zeros 16) with constantTerm := s } := by
    unfold PolyFunction.new
    rw [list16' r s hr, List.drop_left' hr]
  have hval := Proofs.Poly1305.value_spec m { PolyFunction.new (r ++ s) with h := h' } g' (by simp [PolyFunction.new, hr, hs])
  have he : (chunks 16 (Spec.Poly1305.macData data ct)).foldlM (PolyFunction.process m) (PolyFunction.new (r ++ s)) =
      some { PolyFunction.new (r ++ s) with h := h' } := by
    rw [hnew, fold_constantTerm, e' m]
    rfl
  rw [Proofs.Poly1305.macData_chunks, List.foldlM_append, List.foldlM_append, ← Proofs.Poly1305.fold_processChunk, Option.bind_eq_bind] at he
  obtain ⟨f2, hf2, he⟩ := Option.bind_eq_some_iff.mp he
  obtain ⟨f1, hf1, hf2⟩ := Option.bind_eq_some_iff.mp hf2
  rw [← Proofs.Poly1305.fold_processChunk] at hf2
  rw [List.foldlM_cons, Option.bind_eq_bind] at he
  obtain ⟨f3, hf3, he⟩ := Option.bind_eq_some_iff.mp he
  rw [List.foldlM_nil] at he
  obtain rfl : f3 = { PolyFunction.new (r ++ s) with h := h' } := Option.some.inj he
  have hadd : addC m (0 : U64) (BitVec.ofNat 64 ct.length) = some (BitVec.ofNat 64 ct.length) := by
    rw [addC_ok m _ _ (by rw [BitVec.toNat_ofNat]; change 0 + ct.length % 2 ^ 64 < 2 ^ 64; omega)]
    exact congrArg some (BitVec.zero_add _)
  have hlen : toLE 8 (BitVec.ofNat 64 data.length).toNat ++ toLE 8 (BitVec.ofNat 64 ct.length).toNat =
      toLE 8 data.length ++ toLE 8 ct.length := by
    rw [BitVec.toNat_ofNat, BitVec.toNat_ofNat]
    rw [show (2 : Nat) ^ 64 = 256 ^ 8 by norm_num, Proofs.Poly1305.toLE_mod, Proofs.Poly1305.toLE_mod]
  unfold poly1305 CryptoPure.Model.Poly1305.Poly1305.new CryptoPure.Model.Poly1305.Poly1305.update CryptoPure.Model.Poly1305.Poly1305.process
    CryptoPure.Model.Poly1305.Poly1305.writeTag
  simp only [hf1, hadd, hf2, hlen, hf3, Option.bind_eq_bind, Option.bind_some]
  rw [hval]
  simp [PolyFunction.new, List.drop_left' hr]

/-- The clamping of `r` forgets 22 bits. -/
theorem clamp_fibre (v : Nat) : Set.ncard {x : BitVec 128 | Spec.Poly1305.clamp x.toNat = v} ≤ 2 ^ 22 := by
  let g : BitVec 128 → BitVec 6 × BitVec 6 × BitVec 6 × BitVec 4 := fun x =>
    (x.extractLsb' 28 6, x.extractLsb' 60 6, x.extractLsb' 92 6, x.extractLsb' 124 4)
  have hmask : ∀ i : Fin 128, (28 ≤ i.val ∧ i.val < 34) ∨ (60 ≤ i.val ∧ i.val < 66) ∨ (92 ≤ i.val ∧ i.val < 98) ∨ 124 ≤ i.val ∨
      Nat.testBit 0x0ffffffc0ffffffc0ffffffc0fffffff i.val = true := by decide +kernel
  have hinj : Set.InjOn g {x : BitVec 128 | Spec.Poly1305.clamp x.toNat = v} := by
    intro x hx y hy h
    have hxy : Spec.Poly1305.clamp x.toNat = Spec.Poly1305.clamp y.toNat := Eq.trans hx (Eq.symm hy)
    simp only [g, Prod.mk.injEq] at h
    obtain ⟨h1, h2, h3, h4⟩ := h
    have bit : ∀ (s k : Nat), x.extractLsb' s k = y.extractLsb' s k → ∀ i, s ≤ i → i < s + k → x.getLsbD i = y.getLsbD i := by
      intro s k h i h1 h2
      have := congrArg (fun z => z.getLsbD (i - s)) h
      simp only [BitVec.getLsbD_extractLsb'] at this
      rw [show s + (i - s) = i by omega, show decide (i - s < k) = true by simp; omega] at this
      simpa using this
    refine BitVec.eq_of_getLsbD_eq fun i hi => ?_
    rcases hmask ⟨i, hi⟩ with h | h | h | h | h
    · exact bit 28 6 h1 i h.1 h.2
    · exact bit 60 6 h2 i h.1 h.2
    · exact bit 92 6 h3 i h.1 h.2
    · exact bit 124 4 h4 i h hi
    · have := congrArg (fun z => z.testBit i) hxy
      simp only [Spec.Poly1305.clamp, Nat.testBit_and] at this
      simp only at h
      rw [h, Bool.and_true, Bool.and_true] at this
      exact this
  have hfin : ∀ w, Finite (BitVec w) := fun w => Finite.of_injective BitVec.toFin (fun _ _ h => BitVec.toFin_inj.mp h)
  have hcard : ∀ w, Nat.card (BitVec w) = 2 ^ w := fun w => by
    rw [Nat.card_eq_of_bijective (BitVec.toFin (w := w)) ⟨fun _ _ h => BitVec.toFin_inj.mp h, fun x => ⟨⟨x⟩, rfl⟩⟩]
    simp
  have := hfin 6
  have := hfin 4
  rw [← Set.InjOn.ncard_image hinj]
  calc _ ≤ (Set.univ : Set (BitVec 6 × BitVec 6 × BitVec 6 × BitVec 4)).ncard := Set.ncard_le_ncard (Set.subset_univ _) (Set.toFinite _)
    _ = 2 ^ 22 := by
      rw [Set.ncard_univ, Nat.card_prod, Nat.card_prod, Nat.card_prod, hcard, hcard]
      norm_num

theorem clamp_preimage (S : Finset Nat) (r : BitVec 128) :
    Set.ncard {δ : BitVec 128 | Spec.Poly1305.clamp (r ^^^ δ).toNat ∈ S} ≤ 2 ^ 22 * S.card := by
  classical
  have : Fintype (BitVec 128) := Fintype.ofFinite _
  have hinj : Function.Injective (fun δ : BitVec 128 => r ^^^ δ) := fun a b h => by simpa using h
  calc _ = ((fun δ : BitVec 128 => r ^^^ δ) '' {δ : BitVec 128 | Spec.Poly1305.clamp (r ^^^ δ).toNat ∈ S}).ncard :=
        (Set.ncard_image_of_injective _ hinj).symm
    _ ≤ {x : BitVec 128 | Spec.Poly1305.clamp x.toNat ∈ S}.ncard := by
        refine Set.ncard_le_ncard ?_ (Set.toFinite _)
        rintro _ ⟨δ, h, rfl⟩
        exact h
    _ ≤ 2 ^ 22 * S.card := by
        rw [Set.ncard_eq_toFinset_card']
        refine Finset.card_le_mul_card_image_of_maps_to (f := fun x : BitVec 128 => Spec.Poly1305.clamp x.toNat) ?_ _ ?_
        · intro x hx
          simpa using hx
        · intro v _
          refine le_trans ?_ (clamp_fibre v)
          rw [Set.ncard_eq_toFinset_card']
          refine Finset.card_le_card fun x hx => ?_
          simp only [Finset.mem_filter] at hx
          simpa using hx.2

/-- The halves `r` and `s` of the one-time key in block 0. -/
def keyHalves (b : {b : Bytes // b.length = 64}) : BitVec 128 × BitVec 128 :=
  (BitVec.ofNat 128 (leNat (b.1.take 16)), BitVec.ofNat 128 (leNat ((b.1.drop 16).take 16)))

/-- The block with other halves. -/
def withHalves (p : BitVec 128 × BitVec 128) (b : {b : Bytes // b.length = 64}) : {b : Bytes // b.length = 64} :=
  ⟨toLE 16 p.1.toNat ++ (toLE 16 p.2.toNat ++ b.1.drop 32), by simp [b.2]⟩

theorem leNat_lt16 (a : Bytes) (h : a.length = 16) : leNat a < 2 ^ 128 := by
  have := leNat_lt a
  rw [h] at this
  exact this

theorem toLE_ofNat16 (a : Bytes) (h : a.length = 16) : toLE 16 (BitVec.ofNat 128 (leNat a)).toNat = a := by
  have e := toLE_leNat a
  rw [h] at e
  rw [BitVec.toNat_ofNat, Nat.mod_eq_of_lt (leNat_lt16 a h), e]

theorem ofNat_leNat_toLE (x : BitVec 128) : BitVec.ofNat 128 (leNat (toLE 16 x.toNat)) = x := by
  rw [leNat_toLE, Nat.mod_eq_of_lt (by have := x.isLt; norm_num; exact this), BitVec.ofNat_toNat, BitVec.setWidth_eq]

theorem keyHalves_withHalves (p : BitVec 128 × BitVec 128) (b : {b : Bytes // b.length = 64}) : keyHalves (withHalves p b) = p := by
  unfold keyHalves withHalves
  simp only
  rw [List.take_left' (toLE_length _ _), List.drop_left' (toLE_length _ _), List.take_left' (toLE_length _ _),
    ofNat_leNat_toLE, ofNat_leNat_toLE]

theorem withHalves_withHalves (p p' : BitVec 128 × BitVec 128) (b : {b : Bytes // b.length = 64}) :
    withHalves p (withHalves p' b) = withHalves p b := by
  unfold withHalves
  refine Subtype.ext ?_
  simp only
  rw [← List.append_assoc (toLE 16 p'.1.toNat), List.drop_left' (by simp)]

theorem withHalves_keyHalves (b : {b : Bytes // b.length = 64}) : withHalves (keyHalves b) b = b := by
  unfold keyHalves withHalves
  refine Subtype.ext ?_
  simp only
  rw [toLE_ofNat16 _ (by simp [b.2]), toLE_ofNat16 _ (by simp [b.2])]
  have h : (b.1.drop 16).drop 16 = b.1.drop 32 := by rw [List.drop_drop]
  rw [← h, List.take_append_drop, List.take_append_drop]

/-- The part of the tag that depends on `r`. -/
noncomputable def tagNumber (data ct : Bytes) (r : BitVec 128) : BitVec 128 :=
  BitVec.ofNat 128 (Classical.choose (poly1305_split (toLE 16 r.toNat) data ct (toLE_length _ _)))

/-- The tag for given halves of the one-time key. -/
noncomputable def tagOf (data ct : Bytes) (p : BitVec 128 × BitVec 128) : Bytes := toLE 16 (tagNumber data ct p.1 + p.2).toNat

theorem poly1305_tagOf (m : Mode) (b : {b : Bytes // b.length = 64}) (data ct : Bytes) :
    poly1305 m (b.1.take 32) data ct = some (tagOf data ct (keyHalves b)) := by
  have e : b.1.take 32 = toLE 16 (keyHalves b).1.toNat ++ toLE 16 (keyHalves b).2.toNat := by
    unfold keyHalves
    simp only
    rw [toLE_ofNat16 _ (by simp [b.2]), toLE_ofNat16 _ (by simp [b.2])]
    exact List.take_add (i := 16) (j := 16)
  rw [e, Classical.choose_spec (poly1305_split (toLE 16 (keyHalves b).1.toNat) data ct (toLE_length _ _)) m _ (toLE_length _ _)]
  unfold tagOf tagNumber
  generalize Classical.choose _ = x
  rw [leNat_toLE, BitVec.toNat_add, BitVec.toNat_ofNat, Nat.mod_add_mod, ← Proofs.Poly1305.toLE_mod 16 (x + _), Nat.add_mod_mod]
  rfl

/-- What an encryption that returned says about the block function. -/
theorem encryptWith_some (m : Mode) (G : BlockSource) (input nonce data output ct t : Bytes) :
    encryptWith m (setupOf G) input nonce data output = some (ct, t) ↔
      ∃ hn : nonce.length = 12, input.length = output.length ∧ (m = .release ∨ (input.length + 63) / 64 < 2 ^ 32 - 2) ∧
        ct = cryptWith (fun i => (G ⟨nonce, hn⟩ i).1) 1 (chunks 64 input) ∧ t = tagOf data ct (keyHalves (G ⟨nonce, hn⟩ 0)) := by
  by_cases h : nonce.length = 12 ∧ input.length = output.length ∧ (m = .release ∨ (input.length + 63) / 64 < 2 ^ 32 - 2)
  · obtain ⟨hn, hl, hm⟩ := h
    rw [encryptWith_spec m G _ _ _ _ hn hl hm, poly1305_tagOf]
    constructor
    · intro h
      cases h
      exact ⟨hn, hl, hm, rfl, rfl⟩
    · rintro ⟨_, _, _, rfl, rfl⟩
      rfl
  · rw [encryptWith_none m G _ _ _ _ h]
    constructor
    · intro h; cases h
    · rintro ⟨h1, h2, h3, -⟩
      exact absurd ⟨h1, h2, h3⟩ h

theorem decryptWith_true (m : Mode) (G : BlockSource) (ct nonce data t buf out : Bytes)
    (h : decryptWith m (setupOf G) ct nonce data t buf = some (out, true)) :
    ∃ hn : nonce.length = 12, t = tagOf data ct (keyHalves (G ⟨nonce, hn⟩ 0)) := by
  unfold decryptWith at h
  by_cases hn : nonce.length = 12
  · refine ⟨hn, ?_⟩
    rw [setupOf_some hn] at h
    simp only [Option.bind_eq_bind, Option.bind_some, poly1305_tagOf] at h
    rw [C01_verify16 _ _ (by unfold tagOf; simp)] at h
    by_contra hne
    obtain ⟨_, -, h⟩ := Option.bind_eq_some_iff.mp h
    simp only [Option.bind_some] at h
    rw [if_neg (by simpa using fun e => hne (Eq.symm e))] at h
    cases h
  · unfold setupOf at h
    rw [dif_neg hn] at h
    obtain ⟨_, -, h⟩ := Option.bind_eq_some_iff.mp h
    cases h

/-- The block functions with which those encryptions have those results. -/
def ccpExplains (m : Mode) (qs : List Sent) : Set BlockSource :=
  {G | ∀ q ∈ qs, encryptWith m (setupOf G) q.msg q.nonce q.data q.buffer = some (q.ct, q.tag)}

/-- The block functions with which `decrypt` accepts. -/
def ccpAccepts (m : Mode) (nonce data ct t : Bytes) : Set BlockSource :=
  {G | ∃ buf out, decryptWith m (setupOf G) ct nonce data t buf = some (out, true)}

/-- Changes the one-time key of one nonce. -/
def actKey (n : {n : Bytes // n.length = 12}) (φ : BitVec 128 × BitVec 128 → BitVec 128 × BitVec 128) (G : BlockSource) : BlockSource :=
  fun n' i => if n' = n ∧ i = 0 then withHalves (φ (keyHalves (G n' i))) (G n' i) else G n' i

theorem actKey_involutive (n : {n : Bytes // n.length = 12}) {φ : BitVec 128 × BitVec 128 → BitVec 128 × BitVec 128}
    (h : Function.Involutive φ) : Function.Involutive (actKey n φ) := by
  intro G
  funext n' i
  unfold actKey
  by_cases hc : n' = n ∧ i = 0
  · simp only [if_pos hc]
    rw [keyHalves_withHalves, h, withHalves_withHalves, withHalves_keyHalves]
  · simp only [if_neg hc]

theorem actKey_other (n : {n : Bytes // n.length = 12}) (φ) (G : BlockSource) {n' : {n : Bytes // n.length = 12}} (h : n' ≠ n) :
    actKey n φ G n' = G n' := by
  funext i
  unfold actKey
  rw [if_neg (fun hc => h hc.1)]

theorem actKey_halves (n : {n : Bytes // n.length = 12}) (φ) (G : BlockSource) : keyHalves (actKey n φ G n 0) = φ (keyHalves (G n 0)) := by
  unfold actKey
  rw [if_pos ⟨rfl, rfl⟩, keyHalves_withHalves]

theorem actKey_crypt (n : {n : Bytes // n.length = 12}) (φ) (G : BlockSource) (msg : Bytes) (hb : msg.length ≤ 64 * (2 ^ 32 - 1)) :
    cryptWith (fun i => (actKey n φ G n i).1) 1 (chunks 64 msg) = cryptWith (fun i => (G n i).1) 1 (chunks 64 msg) := by
  refine cryptWith_congr msg msg rfl 1 fun j hj => ?_
  have e := (ofNat_toNat_ne (j := j) (by omega)).2
  unfold actKey
  rw [if_neg (fun h => e h.2)]

/-- Changing the one-time key of a nonce in a way that keeps the tag sent under that nonce, if any. -/
theorem actKey_explains {m : Mode} {qs : List Sent} (hb : ∀ q ∈ qs, q.msg.length ≤ 64 * (2 ^ 32 - 1)) (n : {n : Bytes // n.length = 12})
    (φ : BitVec 128 × BitVec 128 → BitVec 128 × BitVec 128) (h : ∀ q ∈ qs, q.nonce = n.1 → ∀ p, tagOf q.data q.ct (φ p) = tagOf q.data q.ct p)
    {G : BlockSource} (hG : G ∈ ccpExplains m qs) : actKey n φ G ∈ ccpExplains m qs := by
  intro q hq
  obtain ⟨hn, h1, h2, h3, h4⟩ := (encryptWith_some m G _ _ _ _ _ _).mp (hG q hq)
  rw [encryptWith_some]
  refine ⟨hn, h1, h2, ?_, ?_⟩
  · by_cases he : (⟨q.nonce, hn⟩ : {n : Bytes // n.length = 12}) = n
    · subst he
      rw [actKey_crypt _ _ _ _ (hb q hq)]; exact h3
    · rw [actKey_other _ _ _ he]; exact h3
  · by_cases he : (⟨q.nonce, hn⟩ : {n : Bytes // n.length = 12}) = n
    · subst he
      rw [actKey_halves, h q hq rfl]; exact h4
    · rw [actKey_other _ _ _ he]; exact h4

/-- `r` changed by `δ`, with `s` adapted so that the tag of `(data, ct)` stays. -/
noncomputable def moveR (data ct : Bytes) (δ : BitVec 128) (p : BitVec 128 × BitVec 128) : BitVec 128 × BitVec 128 :=
  (p.1 ^^^ δ, tagNumber data ct p.1 + p.2 - tagNumber data ct (p.1 ^^^ δ))

theorem moveR_involutive (data ct : Bytes) (δ : BitVec 128) : Function.Involutive (moveR data ct δ) := by
  rintro ⟨r, s⟩
  unfold moveR
  simp only
  rw [BitVec.xor_assoc, BitVec.xor_self, BitVec.xor_zero]
  congr 1
  generalize tagNumber data ct r = a
  generalize tagNumber data ct (r ^^^ δ) = b
  rw [BitVec.add_comm b, BitVec.sub_add_cancel, BitVec.add_comm a, BitVec.add_sub_cancel]

theorem moveR_tag (data ct : Bytes) (δ : BitVec 128) (p) : tagOf data ct (moveR data ct δ p) = tagOf data ct p := by
  unfold tagOf moveR
  simp only
  rw [BitVec.add_comm, BitVec.sub_add_cancel]

instance (n : Nat) : Finite {b : Bytes // b.length = n} := by
  have : Finite U8 := Finite.of_injective BitVec.toFin (fun _ _ h => BitVec.toFin_inj.mp h)
  have : Fintype U8 := Fintype.ofFinite _
  exact Finite.of_fintype (List.Vector U8 n)

instance : Finite U32 := Finite.of_injective BitVec.toFin (fun _ _ h => BitVec.toFin_inj.mp h)

/-- C82. Forging over a random block function. Take any encryptions under pairwise different nonces with their results, and any
attempt `(nonce, data, ct, t)` that is not one of them. Among the block functions that explain the results, at most the fraction
`1480 * n / 2^106` lets the attempt be accepted, `n` being the largest number of 16-byte blocks authenticated in one message. -/
theorem C82_ccp_forgery (m m' : Mode) (qs : List Sent) (hd : (qs.map Sent.nonce).Nodup)
    (hb : ∀ q ∈ qs, q.msg.length ≤ 64 * (2 ^ 32 - 1) ∧ q.data.length < 2 ^ 64)
    (nonce data ct t : Bytes) (hdata : data.length < 2 ^ 64) (hct : ct.length < 2 ^ 64)
    (hnew : ∀ q ∈ qs, (q.nonce, q.data, q.ct, q.tag) ≠ (nonce, data, ct, t)) (n : Nat) (hn : ccpBlocks data ct ≤ n)
    (hq : ∀ q ∈ qs, ccpBlocks q.data q.ct ≤ n) :
    (ccpExplains m qs ∩ ccpAccepts m' nonce data ct t).ncard * 2 ^ 106 ≤ 1480 * n * (ccpExplains m qs).ncard := by
  have h1n : 1 ≤ n := le_trans (by unfold ccpBlocks; omega) hn
  suffices h : (ccpExplains m qs ∩ ccpAccepts m' nonce data ct t).ncard * 2 ^ 128 ≤ (2 ^ 22 * (1480 * n)) * (ccpExplains m qs).ncard by
    have e : (2 : Nat) ^ 128 = 2 ^ 22 * 2 ^ 106 := by norm_num
    rw [e] at h
    have : 2 ^ 22 * ((ccpExplains m qs ∩ ccpAccepts m' nonce data ct t).ncard * 2 ^ 106) ≤
        2 ^ 22 * (1480 * n * (ccpExplains m qs).ncard) := by
      calc _ = (ccpExplains m qs ∩ ccpAccepts m' nonce data ct t).ncard * (2 ^ 22 * 2 ^ 106) := by ring
        _ ≤ _ := h
        _ = _ := by ring
    exact Nat.le_of_mul_le_mul_left this (by norm_num)
  by_cases hl : nonce.length = 12
  · by_cases hmem : nonce ∈ qs.map Sent.nonce
    · obtain ⟨q, hqm, rfl⟩ := List.mem_map.mp hmem
      by_cases hsame : (data, ct) = (q.data, q.ct)
      · have : ccpExplains m qs ∩ ccpAccepts m' q.nonce data ct t = ∅ := by
          rw [Set.eq_empty_iff_forall_notMem]
          rintro G ⟨hG, buf, out, hA⟩
          cases hsame
          obtain ⟨_, e1⟩ := decryptWith_true m' G _ _ _ _ _ _ hA
          obtain ⟨_, _, _, _, e2⟩ := (encryptWith_some m G _ _ _ _ _ _).mp (hG q hqm)
          exact hnew q hqm (by rw [e1, ← e2])
        rw [this]; simp
      · by_cases hex : ∃ G, G ∈ ccpExplains m qs
        · obtain ⟨G0, hG0⟩ := hex
          obtain ⟨_, hlen, _, hct0, _⟩ := (encryptWith_some m G0 _ _ _ _ _ _).mp (hG0 q hqm)
          have hqct : q.ct.length < 2 ^ 64 := by
            rw [hct0, cryptWith_length (fun i => (G0 _ i).2)]
            have := (hb q hqm).1
            omega
          obtain ⟨S, hS, hall⟩ := C62_poly1305_collisions q.data q.ct q.tag data ct t (hb q hqm).2 hqct hdata hct hsame
          refine count_action (fun δ => actKey ⟨q.nonce, hl⟩ (moveR q.data q.ct δ))
            (fun δ => actKey_involutive _ (moveR_involutive q.data q.ct δ)) _ _ (fun δ G hG => ?_) Set.inter_subset_left _ ?_
          · refine actKey_explains (fun q hq => (hb q hq).1) _ _ (fun q' hq' he p => ?_) hG
            rw [List.inj_on_of_nodup_map hd hq' hqm he]
            exact moveR_tag _ _ _ _
          · intro G hG
            have hsub : {δ | actKey ⟨q.nonce, hl⟩ (moveR q.data q.ct δ) G ∈ ccpExplains m qs ∩ ccpAccepts m' q.nonce data ct t} ⊆
                {δ : BitVec 128 | Spec.Poly1305.clamp ((keyHalves (G ⟨q.nonce, hl⟩ 0)).1 ^^^ δ).toNat ∈ S} := by
              rintro δ ⟨h1, buf, out, h2⟩
              obtain ⟨_, e1⟩ := decryptWith_true m' _ _ _ _ _ _ _ h2
              obtain ⟨_, _, _, _, e2⟩ := (encryptWith_some m _ _ _ _ _ _ _).mp (h1 q hqm)
              have hb0 := (actKey ⟨q.nonce, hl⟩ (moveR q.data q.ct δ) G ⟨q.nonce, hl⟩ 0).2
              have := hall ((actKey ⟨q.nonce, hl⟩ (moveR q.data q.ct δ) G ⟨q.nonce, hl⟩ 0).1.take 32) (by rw [List.length_take, hb0]; rfl) m m'
                (by rw [poly1305_tagOf, ← e2]) (by rw [poly1305_tagOf, ← e1])
              rw [List.take_take] at this
              have ek := actKey_halves ⟨q.nonce, hl⟩ (moveR q.data q.ct δ) G
              generalize actKey ⟨q.nonce, hl⟩ (moveR q.data q.ct δ) G ⟨q.nonce, hl⟩ 0 = b at this ek
              have ek1 := congrArg Prod.fst ek
              unfold moveR at ek1
              simp only [keyHalves] at ek1
              show Spec.Poly1305.clamp ((keyHalves (G ⟨q.nonce, hl⟩ 0)).1 ^^^ δ).toNat ∈ S
              unfold keyHalves
              simp only
              rw [← ek1, BitVec.toNat_ofNat, Nat.mod_eq_of_lt (leNat_lt16 _ (by simp [b.2]))]
              exact this
            calc _ ≤ _ := Set.ncard_le_ncard hsub (Set.toFinite _)
              _ ≤ 2 ^ 22 * S.card := clamp_preimage S _
              _ ≤ 2 ^ 22 * (1480 * n) := Nat.mul_le_mul_left _ (hS.trans (Nat.mul_le_mul_left _ (max_le (hq q hqm) hn)))
        · have : ccpExplains m qs ∩ ccpAccepts m' q.nonce data ct t = ∅ := by
            rw [Set.eq_empty_iff_forall_notMem]
            rintro G ⟨hG, -⟩
            exact hex ⟨G, hG⟩
          rw [this]; simp
    · refine le_trans (count_action (fun δ => actKey ⟨nonce, hl⟩ (fun p => (p.1, p.2 ^^^ δ)))
        (fun δ => actKey_involutive _ (fun p => by simp [BitVec.xor_assoc])) (ccpExplains m qs) _ (fun δ G hG => ?_) Set.inter_subset_left 1 ?_) ?_
      · refine actKey_explains (fun q hq => (hb q hq).1) _ _ (fun q' hq' he p => ?_) hG
        exact absurd (List.mem_map.mpr ⟨q', hq', he⟩) hmem
      · intro G hG
        rw [Set.ncard_le_one]
        rintro a ⟨-, _, _, ha⟩ b ⟨-, _, _, hb⟩
        obtain ⟨_, e1⟩ := decryptWith_true m' _ _ _ _ _ _ _ ha
        obtain ⟨_, e2⟩ := decryptWith_true m' _ _ _ _ _ _ _ hb
        rw [actKey_halves] at e1 e2
        have e := congrArg leNat (e1.symm.trans e2)
        unfold tagOf at e
        have e := congrArg (BitVec.ofNat 128) e
        rw [ofNat_leNat_toLE, ofNat_leNat_toLE] at e
        simpa using e
      · refine Nat.mul_le_mul_right _ ?_
        omega
  · have : ccpExplains m qs ∩ ccpAccepts m' nonce data ct t = ∅ := by
      rw [Set.eq_empty_iff_forall_notMem]
      rintro G ⟨-, buf, out, hA⟩
      exact hl (decryptWith_true m' G _ _ _ _ _ _ hA).1
    rw [this]; simp

/-- C82, with several attempts. -/
theorem C82_ccp_forgeries (m m' : Mode) (qs : List Sent) (hd : (qs.map Sent.nonce).Nodup)
    (hb : ∀ q ∈ qs, q.msg.length ≤ 64 * (2 ^ 32 - 1) ∧ q.data.length < 2 ^ 64)
    (attempts : List (Bytes × Bytes × Bytes × Bytes)) (hlen : ∀ a ∈ attempts, a.2.1.length < 2 ^ 64 ∧ a.2.2.1.length < 2 ^ 64)
    (hnew : ∀ q ∈ qs, ∀ a ∈ attempts, (q.nonce, q.data, q.ct, q.tag) ≠ a) (n : Nat)
    (hn : ∀ a ∈ attempts, ccpBlocks a.2.1 a.2.2.1 ≤ n) (hq : ∀ q ∈ qs, ccpBlocks q.data q.ct ≤ n) :
    (ccpExplains m qs ∩ {G | ∃ a ∈ attempts, G ∈ ccpAccepts m' a.1 a.2.1 a.2.2.1 a.2.2.2}).ncard * 2 ^ 106 ≤
      attempts.length * (1480 * n) * (ccpExplains m qs).ncard := by
  induction attempts with
  | nil => simp
  | cons a as ih =>
    have h1 := C82_ccp_forgery m m' qs hd hb a.1 a.2.1 a.2.2.1 a.2.2.2 (hlen a (by simp)).1 (hlen a (by simp)).2
      (fun q hq => hnew q hq a (by simp)) n (hn a (by simp)) hq
    have h2 := ih (fun b hb => hlen b (by simp [hb])) (fun q hq b hb => hnew q hq b (by simp [hb])) (fun b hb => hn b (by simp [hb]))
    have hs : ccpExplains m qs ∩ {F | ∃ b ∈ a :: as, F ∈ ccpAccepts m' b.1 b.2.1 b.2.2.1 b.2.2.2} =
        (ccpExplains m qs ∩ ccpAccepts m' a.1 a.2.1 a.2.2.1 a.2.2.2) ∪
          (ccpExplains m qs ∩ {F | ∃ b ∈ as, F ∈ ccpAccepts m' b.1 b.2.1 b.2.2.1 b.2.2.2}) := by
      ext F
      simp only [Set.mem_inter_iff, Set.mem_union, Set.mem_ofPred_eq, List.mem_cons, exists_eq_or_imp]
      tauto
    rw [hs]
    have h3 := Set.ncard_union_le (ccpExplains m qs ∩ ccpAccepts m' a.1 a.2.1 a.2.2.1 a.2.2.2)
      (ccpExplains m qs ∩ {F | ∃ b ∈ as, F ∈ ccpAccepts m' b.1 b.2.1 b.2.2.1 b.2.2.2})
    rw [List.length_cons]
    nlinarith

/-- Every block function explains what it did. -/
example (G : BlockSource) : ∃ q : Sent, q.msg = [1, 2, 3] ∧ G ∈ ccpExplains .debug [q] := by
  have h := (encryptWith_some .debug G [1, 2, 3] (zeros 12) [] (zeros 3) _ _).mpr ⟨by simp, by simp, .inr (by simp), rfl, rfl⟩
  revert h
  generalize tagOf _ _ _ = t
  generalize cryptWith _ _ _ = ct
  intro h
  refine ⟨⟨zeros 12, [], [1, 2, 3], zeros 3, ct, t⟩, rfl, ?_⟩
  intro q hq
  rw [List.mem_singleton] at hq
  subst hq
  exact h

/-! ## Further concrete cases -/

example (buffer : Choice → Bytes) (seen : Choice → Option (Bytes × Bytes)) :=
  C81_ccp_observations twoChoices (by decide) (by decide) (by decide) .debug buffer seen

example : ∃ σ : Equiv.Perm BlockSource, ∀ G, ∀ q ∈ twoChoices, ∀ (m : Mode) (output : Bytes),
    encryptWith m (setupOf (σ G)) q.msg' q.nonce q.data output = encryptWith m (setupOf G) q.msg q.nonce q.data output :=
  C81_ccp_hides_messages twoChoices (by decide) (by decide) (by decide)

/-- The crate's own block function in place of the random one. -/
example (t : Bytes) : encryptWith .debug (fun nonce => (ChaCha20.new (zeros 32) nonce).map ChaCha20.block) [1, 2] (zeros 12) [] [0, 0] =
    encrypt .debug (zeros 32) [1, 2] (zeros 12) [] [0, 0] := (C81_with_chacha20 .debug (zeros 32) [1, 2] (zeros 12) [] [0, 0] t).1

example (tag : Bytes) : (ccpExplains .debug [⟨zeros 12, [], [1, 2, 3], zeros 3, [4, 5, 6], tag⟩] ∩
      ccpAccepts .debug (zeros 12) [9] [4, 5, 7] tag).ncard * 2 ^ 106 ≤
    1480 * 3 * (ccpExplains .debug [⟨zeros 12, [], [1, 2, 3], zeros 3, [4, 5, 6], tag⟩]).ncard :=
  C82_ccp_forgery .debug .debug _ (by simp) (by simp) (zeros 12) [9] [4, 5, 7] tag (by simp) (by simp) (by simp) 3 (by decide) (by simp [ccpBlocks])

example (tag : Bytes) (tags : List Bytes) := C82_ccp_forgeries .debug .release [⟨zeros 12, [], [1, 2, 3], zeros 3, [4, 5, 6], tag⟩] (by simp) (by simp)
  (tags.map fun t => (zeros 12, [9], [4, 5, 7], t)) (by simp) (by simp) 3 (by simp [ccpBlocks]) (by simp [ccpBlocks])

end CryptoPure.Props
