import Verif.Props.StreamReduction
import Verif.Props.Ratchet
import Verif.Props.ChaCha20
import Mathlib.Logic.Equiv.Fin.Basic

/-! # C145: a ChaCha20 stream as a generator of random bytes

The documentation of `Stream` says that it can be used as a pseudorandom generator. -/

namespace CryptoPure.Props
open CryptoPure.Model CryptoPure.Model.ChaCha20 Proofs Distinguisher StreamGame
open Game hiding play forges

/-- Strings of `n` bytes. -/
abbrev Str (n : Nat) := {b : Bytes // b.length = n}

/-- The first `n` bytes of the iterator `Stream::new(key, nonce)` of the crate. -/
def streamBytes (m : Mode) (key nonce : Bytes) (n : Nat) : Option Bytes := do
  let s ← Stream.new key nonce
  let (bytes, _) ← nextBytes m n s
  some bytes

open Classical in
/-- Ask for the blocks of the first `n` bytes of the streams of these nonces, and say whether the bytes have the property `P`. -/
noncomputable def generatorTest {u n : Nat} (nonces : Fin u → Str 12) (P : (Fin u → Str n) → Prop) : Distinguisher ChaChaPoint ChaChaBlock :=
  askAll ((List.ofFn nonces).flatMap fun nonce => blockPoints nonce 0 n) fun answers =>
    .verdict (decide (P fun i => ⟨keystream (table answers) (nonces i) 0 n, by simp [keystream]⟩))

/-- The bytes that a block function gives. -/
def bytesOf {u : Nat} (n : Nat) (nonces : Fin u → Str 12) (F : ChaChaPoint → ChaChaBlock) (i : Fin u) : Str n :=
  ⟨keystream F (nonces i) 0 n, by simp [keystream]⟩

theorem generatorTest_run {u n : Nat} (nonces : Fin u → Str 12) (P : (Fin u → Str n) → Prop) (F : ChaChaPoint → ChaChaBlock) :
    (generatorTest nonces P).run F = true ↔ P (bytesOf n nonces F) := by
  unfold generatorTest
  rw [askAll_run, Distinguisher.run]
  refine (@decide_eq_true_iff _ (Classical.propDecidable _)).trans ?_
  refine iff_of_eq (congrArg P (funext fun i => Subtype.ext ?_))
  refine keystream_congr _ _ _ _ _ fun x hx => table_map F _ x ?_
  exact List.mem_flatMap.mpr ⟨nonces i, List.mem_ofFn.mpr ⟨i, rfl⟩, hx⟩

theorem streamBytes_eq (m : Mode) (key : ChaChaKey) (nonce : Str 12) (n : Nat) (hn : n ≤ 2 ^ 38) :
    streamBytes m key.1 nonce.1 n = some (keystream (chachaFunction key) nonce 0 n) := by
  obtain ⟨s, hs⟩ : ∃ s, Stream.new key.1 nonce.1 = some s := Option.ne_none_iff_exists'.mp fun h => (C28_new _ _).mp h ⟨key.2, nonce.2⟩
  obtain ⟨s', h⟩ := C25_stream_bytes key.1 nonce.1 s hs m n (Or.inr hn)
  unfold streamBytes
  rw [hs]
  simp only [Option.bind_eq_bind, Option.bind_some, h]
  refine congrArg some ?_
  unfold keystream
  refine List.map_congr_left fun i _ => ?_
  rw [Nat.zero_add]
  rfl

/-- The bytes are computed without panics, and do not depend on the build. -/
theorem C145_bytes {u : Nat} (m : Mode) (key : ChaChaKey) (nonces : Fin u → Str 12) (n : Nat) (hn : n ≤ 2 ^ 38) :
    ∃! outs : Fin u → Str n, ∀ i, streamBytes m key.1 (nonces i).1 n = some (outs i).1 := by
  refine ⟨bytesOf n nonces (chachaFunction key), fun i => streamBytes_eq m key (nonces i) n hn, fun outs h => ?_⟩
  funext i
  exact Subtype.ext (Option.some.inj ((h i).symm.trans (streamBytes_eq m key (nonces i) n hn)))

/-- The test asks for one block for each 64 bytes, or part of them, of each stream. -/
theorem C145_asks {u n : Nat} (nonces : Fin u → Str 12) (P : (Fin u → Str n) → Prop) : (generatorTest nonces P).Asks (u * ((n + 63) / 64)) := by
  unfold generatorTest
  refine Asks.mono (askAll_asks _ _ 0 fun t => trivial) ?_
  rw [List.length_flatMap, Nat.add_zero, List.map_congr_left (g := fun _ => (n + 63) / 64) (by simp [blockPoints]), List.map_const', List.length_ofFn, List.sum_replicate,
    smul_eq_mul]

/-- Run on the ChaCha20 block function under a key, it reports whether the bytes that the crate computes have the property. -/
theorem C145_runs {u n : Nat} (m : Mode) (hn : n ≤ 2 ^ 38) (nonces : Fin u → Str 12) (P : (Fin u → Str n) → Prop) (key : ChaChaKey) :
    (generatorTest nonces P).run (chachaFunction key) = true ↔
      ∃ outs : Fin u → Str n, (∀ i, streamBytes m key.1 (nonces i).1 n = some (outs i).1) ∧ P outs := by
  rw [generatorTest_run]
  constructor
  · exact fun h => ⟨_, fun i => streamBytes_eq m key (nonces i) n hn, h⟩
  · rintro ⟨outs, h1, h2⟩
    obtain ⟨_, _, h3⟩ := C145_bytes m key nonces n hn
    rw [h3 outs h1] at h2
    rwa [h3 (bytesOf n nonces (chachaFunction key)) fun i => streamBytes_eq m key (nonces i) n hn]

/-- Strings and their bytes. -/
def strEquiv (n : Nat) : (Fin n → U8) ≃ Str n where
  toFun f := ⟨List.ofFn f, by simp⟩
  invFun s i := s.1[i.1]'(by rw [s.2]; exact i.2)
  left_inv f := by funext i; simp
  right_inv s := by
    refine Subtype.ext (List.ext_getElem (by simp [s.2]) fun i h1 h2 => ?_)
    simp

/-- Where byte `j` of stream `i` comes from. -/
def source {u : Nat} (n : Nat) (nonces : Fin u → Str 12) (x : Fin u × Fin n) : Str 12 × U32 × Fin 64 :=
  (nonces x.1, BitVec.ofNat 32 (x.2.1 / 64), ⟨x.2.1 % 64, Nat.mod_lt _ (by decide)⟩)

theorem source_injective {u n : Nat} (hn : n ≤ 2 ^ 38) (nonces : Fin u → Str 12) (hi : Function.Injective nonces) : Function.Injective (source n nonces) := by
  rintro ⟨i, j⟩ ⟨i', j'⟩ h
  simp only [source, Prod.mk.injEq, Fin.mk.injEq] at h
  obtain ⟨h1, h2, h3⟩ := h
  have h2 := congrArg BitVec.toNat h2
  rw [BitVec.toNat_ofNat, BitVec.toNat_ofNat] at h2
  have := j.2
  have := j'.2
  rw [hi h1, Prod.mk.injEq]
  refine ⟨rfl, Fin.ext ?_⟩
  omega

/-- A random block function gives uniform bytes. -/
theorem bytesOf_uniform {u n : Nat} (hn : n ≤ 2 ^ 38) (nonces : Fin u → Str 12) (hi : Function.Injective nonces) (P : (Fin u → Str n) → Prop) :
    prob (fun F : ChaChaPoint → ChaChaBlock => P (bytesOf n nonces F)) = prob P := by
  let e1 : (ChaChaPoint → ChaChaBlock) ≃ (Str 12 × U32 × Fin 64 → U8) :=
    blocksEquiv.trans
      { toFun := fun G x => G x.1 x.2.1 x.2.2
        invFun := fun g n c j => g (n, c, j)
        left_inv := fun _ => rfl
        right_inv := fun _ => rfl }
  let e2 : (Fin u × Fin n → U8) ≃ (Fin u → Str n) := (Equiv.curry _ _ _).trans ((Equiv.refl (Fin u)).arrowCongr (strEquiv n))
  have h1 := prob_equiv e1 (fun g => P (e2 fun x => g (source n nonces x)))
  rw [prob_points (source n nonces) (source_injective hn nonces hi) (fun f => P (e2 f)), prob_equiv e2] at h1
  rw [← h1]
  refine hmac_prob_congr fun F => iff_of_eq (congrArg P ?_)
  funext i
  refine Subtype.ext ?_
  show keystream F (nonces i) 0 n = List.ofFn fun j : Fin n => (F (nonces i, BitVec.ofNat 32 (j.1 / 64))).1.getD (j.1 % 64) 0
  unfold keystream
  rw [List.ofFn_eq_map, ← List.map_coe_finRange_eq_range, List.map_map]
  refine List.map_congr_left fun j _ => ?_
  simp

/-- **The generator is pseudorandom.** Under a random key, the first `n` bytes of the streams of any nonces that differ look to every test like independent
uniform bytes, up to the advantage with which the test, asking for the blocks of these bytes, tells the ChaCha20 block function under a random key from a random function. -/
theorem C145_pseudorandom {u n : Nat} (m : Mode) (hn : n ≤ 2 ^ 38) (nonces : Fin u → Str 12) (hi : Function.Injective nonces) (P : (Fin u → Str n) → Prop) :
    |prob (fun key : ChaChaKey => ∃ outs : Fin u → Str n, (∀ i, streamBytes m key.1 (nonces i).1 n = some (outs i).1) ∧ P outs) - prob P| ≤
      chachaAdvantage (generatorTest nonces P) := by
  have e1 : prob (fun key : ChaChaKey => ∃ outs : Fin u → Str n, (∀ i, streamBytes m key.1 (nonces i).1 n = some (outs i).1) ∧ P outs) =
      prob (fun key => (generatorTest nonces P).run (chachaFunction key) = true) := hmac_prob_congr fun key => (C145_runs m hn nonces P key).symm
  have e2 : prob P = prob (fun F : ChaChaPoint → ChaChaBlock => (generatorTest nonces P).run F = true) := by
    rw [← bytesOf_uniform hn nonces hi]
    exact hmac_prob_congr fun F => (generatorTest_run nonces P F).symm
  rw [e1, e2]
  exact le_rfl

/-! ## A generator that erases its key -/

/-- A generator: each request reads `32 + r` bytes of a stream, keeps the first 32 as the next key and returns the others. -/
def Erasing (m : Mode) (nonce : Str 12) (r : Nat) {n : Nat} (keys : Fin (n + 1) → ChaChaKey) (outs : Fin n → Str r) : Prop :=
  ∀ i : Fin n, streamBytes m (keys i.castSucc).1 nonce.1 (32 + r) = some ((keys i.succ).1 ++ (outs i).1)

/-- When the generator starts with the key `first`, its first `n` outputs and the key after them have the property `P`. -/
def Generated (m : Mode) (nonce : Str 12) (r n : Nat) (P : (Fin n → Str r) → ChaChaKey → Prop) (first : ChaChaKey) : Prop :=
  ∃ (keys : Fin (n + 1) → ChaChaKey) (outs : Fin n → Str r), keys 0 = first ∧ Erasing m nonce r keys outs ∧ P outs (keys (Fin.last n))

/-- The first 32 bytes. -/
def nextKey {r : Nat} (b : Str (32 + r)) : ChaChaKey := ⟨b.1.take 32, by rw [List.length_take, b.2]; omega⟩

/-- The others. -/
def output {r : Nat} (b : Str (32 + r)) : Str r := ⟨b.1.drop 32, by rw [List.length_drop, b.2]; omega⟩

/-- The sum of the advantages of the tests against ChaCha20, one for each request: the test for a request draws the outputs of the earlier ones, takes the bytes that it is
given for those of this request, runs the generator for the others and looks at the result through `P`. -/
noncomputable def erasingAdvantage (m : Mode) (nonce : Str 12) (r : Nat) : (n : Nat) → ((Fin n → Str r) → ChaChaKey → Prop) → ℚ
  | 0, _ => 0
  | n + 1, P => chachaAdvantage (generatorTest (fun _ : Fin 1 => nonce) fun b : Fin 1 → Str (32 + r) =>
        Generated m nonce r n (fun os k => P (Fin.cons (output (b 0)) os) k) (nextKey (b 0))) +
      average fun o : Str r => erasingAdvantage m nonce r n fun os k => P (Fin.cons o os) k

variable {m : Mode} {nonce : Str 12} {r n : Nat}

theorem generated_zero (P : (Fin 0 → Str r) → ChaChaKey → Prop) (k : ChaChaKey) : Generated m nonce r 0 P k ↔ P Fin.elim0 k := by
  constructor
  · rintro ⟨keys, outs, rfl, -, h⟩
    rw [show (Fin.elim0 : Fin 0 → Str r) = outs from funext fun i => i.elim0]
    exact h
  · exact fun h => ⟨fun _ => k, Fin.elim0, rfl, fun i => i.elim0, h⟩

theorem join (b : Str (32 + r)) : (nextKey b).1 ++ (output b).1 = b.1 := List.take_append_drop 32 b.1

theorem generated_succ (P : (Fin (n + 1) → Str r) → ChaChaKey → Prop) (k : ChaChaKey) : Generated m nonce r (n + 1) P k ↔
    ∃ b : Str (32 + r), streamBytes m k.1 nonce.1 (32 + r) = some b.1 ∧ Generated m nonce r n (fun os k => P (Fin.cons (output b) os) k) (nextKey b) := by
  constructor
  · rintro ⟨keys, outs, rfl, h, hP⟩
    have hl := (keys 1).2
    refine ⟨⟨(keys 1).1 ++ (outs 0).1, by rw [List.length_append, (keys 1).2, (outs 0).2]⟩, h 0, Fin.tail keys, Fin.tail outs, ?_, fun i => h i.succ, ?_⟩
    · refine Subtype.ext ?_
      show (keys 1).1 = ((keys 1).1 ++ (outs 0).1).take 32
      rw [List.take_left' hl]
    · have e : output (⟨(keys 1).1 ++ (outs 0).1, by rw [List.length_append, (keys 1).2, (outs 0).2]⟩ : Str (32 + r)) = outs 0 :=
        Subtype.ext (List.drop_left' hl)
      rw [e]
      show P (Fin.cons (outs 0) (Fin.tail outs)) (keys (Fin.last n).succ)
      rw [Fin.cons_self_tail, Fin.succ_last]
      exact hP
  · rintro ⟨b, hb, keys, outs, h0, h, hP⟩
    refine ⟨Fin.cons k keys, Fin.cons (output b) outs, rfl, fun i => ?_, ?_⟩
    · refine Fin.cases ?_ (fun i => ?_) i
      · show streamBytes m k.1 nonce.1 (32 + r) = some ((keys 0).1 ++ (output b).1)
        rw [h0, join]
        exact hb
      · have := h i
        rw [← Fin.succ_castSucc]
        exact this
    · rw [← Fin.succ_last]
      exact hP

/-- **Nothing panics, and the first key determines all keys and outputs.** -/
theorem C145_erasing_exists (m : Mode) (nonce : Str 12) (r n : Nat) (hr : 32 + r ≤ 2 ^ 38) (first : ChaChaKey) :
    ∃! p : (Fin (n + 1) → ChaChaKey) × (Fin n → Str r), p.1 0 = first ∧ Erasing m nonce r p.1 p.2 := by
  have hex : ∀ n (first : ChaChaKey), Generated m nonce r n (fun _ _ => True) first := by
    intro n
    induction n with
    | zero => exact fun first => (generated_zero _ _).mpr trivial
    | succ n ih =>
      intro first
      obtain ⟨outs, h, -⟩ := C145_bytes m first (fun _ : Fin 1 => nonce) (32 + r) hr
      exact (generated_succ _ _).mpr ⟨outs 0, h 0, ih _⟩
  obtain ⟨keys, outs, h0, h, -⟩ := hex n first
  refine ⟨(keys, outs), ⟨h0, h⟩, ?_⟩
  rintro ⟨keys', outs'⟩ ⟨h0', h'⟩
  change keys' 0 = first at h0'
  change Erasing m nonce r keys' outs' at h'
  have hsplit : ∀ i : Fin n, keys' i.castSucc = keys i.castSucc → keys' i.succ = keys i.succ ∧ outs' i = outs i := by
    intro i e
    have h1 := h' i
    rw [e, h i] at h1
    obtain ⟨e1, e2⟩ := List.append_inj (Option.some.inj h1) (by rw [(keys i.succ).2, (keys' i.succ).2])
    exact ⟨(Subtype.ext e1).symm, (Subtype.ext e2).symm⟩
  have hc : ∀ i, keys' i = keys i := by
    intro i
    induction i using Fin.induction with
    | zero => exact h0'.trans h0.symm
    | succ i ih => exact (hsplit i ih).1
  rw [Prod.mk.injEq]
  exact ⟨funext hc, funext fun i => (hsplit i (hc _)).2⟩

instance strNonempty (n : Nat) : Nonempty (Str n) := ⟨⟨zeros n, by simp⟩⟩
instance strFinite (n : Nat) : Finite (Str n) := Finite.of_equiv _ (strEquiv n)

/-- **Who steals the key learns nothing about earlier outputs, and the outputs look random.** Whatever one does with the `n` outputs and the key after them: when the first
key is random, the probability of the result differs from that for independent uniform bytes and an independent uniform key by at most the sum of the advantages of the tests. -/
theorem C145_backtracking (m : Mode) (nonce : Str 12) (r : Nat) (hr : 32 + r ≤ 2 ^ 38) (n : Nat) (P : (Fin n → Str r) → ChaChaKey → Prop) :
    |prob (Generated m nonce r n P) - prob (fun q : (Fin n → Str r) × ChaChaKey => P q.1 q.2)| ≤ erasingAdvantage m nonce r n P := by
  induction n with
  | zero =>
    have e : prob (fun q : (Fin 0 → Str r) × ChaChaKey => P q.1 q.2) = prob (Generated m nonce r 0 P) := by
      rw [← prob_snd (α := Fin 0 → Str r) (Generated m nonce r 0 P)]
      refine hmac_prob_congr fun q => ?_
      rw [generated_zero, show q.1 = Fin.elim0 from funext fun i => i.elim0]
    rw [e, sub_self, abs_zero, erasingAdvantage]
  | succ n ih =>
    obtain ⟨Q, hQ⟩ : ∃ Q : (Fin 1 → Str (32 + r)) → Prop, Q = fun b => Generated m nonce r n (fun os k => P (Fin.cons (output (b 0)) os) k) (nextKey (b 0)) := ⟨_, rfl⟩
    have h1 := C145_pseudorandom m hr (fun _ : Fin 1 => nonce) (fun i j _ => Subsingleton.elim i j) Q
    have e1 : prob (fun key : ChaChaKey => ∃ outs : Fin 1 → Str (32 + r), (∀ i, streamBytes m key.1 nonce.1 (32 + r) = some (outs i).1) ∧ Q outs) =
        prob (Generated m nonce r (n + 1) P) := by
      refine hmac_prob_congr fun key => ?_
      rw [generated_succ, hQ]
      constructor
      · rintro ⟨outs, h, hq⟩
        exact ⟨outs 0, h 0, hq⟩
      · rintro ⟨b, h, hq⟩
        exact ⟨fun _ => b, fun _ => h, hq⟩
    have e2 : prob Q = average fun o : Str r => prob (Generated m nonce r n fun os k => P (Fin.cons o os) k) := by
      let E : ChaChaKey × Str r ≃ (Fin 1 → Str (32 + r)) :=
        { toFun := fun q _ => ⟨q.1.1 ++ q.2.1, by rw [List.length_append, q.1.2, q.2.2]⟩
          invFun := fun b => (nextKey (b 0), output (b 0))
          left_inv := fun q => Prod.ext (Subtype.ext (List.take_left' q.1.2)) (Subtype.ext (List.drop_left' q.1.2))
          right_inv := fun b => by
            funext i
            rw [Subsingleton.elim i 0]
            exact Subtype.ext (join (b 0)) }
      rw [← prob_equiv E Q, ← prob_average (fun q : ChaChaKey × Str r => Generated m nonce r n (fun os k => P (Fin.cons q.2 os) k) q.1)]
      refine hmac_prob_congr fun q => ?_
      rw [hQ]
      have e3 : output (E q 0) = q.2 := congrArg Prod.snd (E.left_inv q)
      have e4 : nextKey (E q 0) = q.1 := congrArg Prod.fst (E.left_inv q)
      show Generated m nonce r n (fun os k => P (Fin.cons (output (E q 0)) os) k) (nextKey (E q 0)) ↔ _
      rw [e3, e4]
    have e3 : prob (fun q : (Fin (n + 1) → Str r) × ChaChaKey => P q.1 q.2) =
        average fun o => prob (fun q : (Fin n → Str r) × ChaChaKey => P (Fin.cons o q.1) q.2) := by
      rw [← prob_average (fun q : ((Fin n → Str r) × ChaChaKey) × Str r => P (Fin.cons q.2 q.1.1) q.1.2)]
      let E : ((Fin n → Str r) × ChaChaKey) × Str r ≃ (Fin (n + 1) → Str r) × ChaChaKey :=
        { toFun := fun q => (Fin.cons q.2 q.1.1, q.1.2)
          invFun := fun q => ((Fin.tail q.1, q.2), q.1 0)
          left_inv := fun q => by simp
          right_inv := fun q => by simp }
      rw [← prob_equiv E]
      rfl
    have h2 := average_close _ _ _ fun o : Str r => ih fun os k => P (Fin.cons o os) k
    rw [← e2, ← e3] at h2
    rw [e1] at h1
    rw [erasingAdvantage, ← hQ]
    have := abs_le.mp h1
    have := abs_le.mp h2
    rw [abs_le]
    constructor <;> linarith

/-! ## Concrete cases -/

/-- The streams of two nonces, read for 100 bytes each: do they agree in the first byte? For uniform bytes that happens once in 256 times. -/
example (m : Mode) : |prob (fun key : ChaChaKey => ∃ outs : Fin 2 → Str 100,
    (∀ i, streamBytes m key.1 ((![⟨zeros 12, by simp⟩, ⟨1 :: zeros 11, by simp⟩] : Fin 2 → Str 12) i).1 100 = some (outs i).1) ∧ (outs 0).1[0]? = (outs 1).1[0]?) -
    prob (fun outs : Fin 2 → Str 100 => (outs 0).1[0]? = (outs 1).1[0]?)| ≤
      chachaAdvantage (generatorTest (![⟨zeros 12, by simp⟩, ⟨1 :: zeros 11, by simp⟩] : Fin 2 → Str 12) fun outs : Fin 2 → Str 100 => (outs 0).1[0]? = (outs 1).1[0]?) :=
  C145_pseudorandom m (by norm_num) _ (by decide) _

example (m : Mode) (first : ChaChaKey) : ∃! p : (Fin 1001 → ChaChaKey) × (Fin 1000 → Str 480),
    p.1 0 = first ∧ Erasing m ⟨zeros 12, by simp⟩ 480 p.1 p.2 := C145_erasing_exists m _ 480 1000 (by norm_num) first

end CryptoPure.Props
