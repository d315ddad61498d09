import Verif.Proofs.GHash
import Verif.Model.Gcm
import Verif.Props.Hash

/-! GCM: the code computes SP 800-38D. `F` is the block function the cipher object computes. -/

namespace CryptoPure.Proofs.Gcm
open CryptoPure.Model CryptoPure.Model.Gcm CryptoPure.Model.Aes

theorem toLE_mod (k x : Nat) : toLE k (x % 256 ^ k) = toLE k x := by
  have h := toLE_leNat (toLE k x)
  rwa [leNat_toLE, toLE_length] at h

theorem toBE_mod (k x : Nat) : toBE k (x % 256 ^ k) = toBE k x := by
  unfold toBE; rw [toLE_mod]

theorem chunks_pairs (a b : Bytes) (h : a.length = b.length) :
    ((chunks 16 a).zip (chunks 16 b)).map Prod.fst = chunks 16 a ∧
    ∀ p ∈ (chunks 16 a).zip (chunks 16 b), p.1.length = p.2.length ∧ p.1.length ≤ 16 := by
  induction hk : a.length using Nat.strongRecOn generalizing a b with
  | _ k ih =>
    by_cases ha : a = []
    · subst ha; simp
    · have hb : b ≠ [] := by intro e; subst e; exact ha (List.length_eq_zero_iff.mp h)
      have hpos : 0 < a.length := List.length_pos_iff.mpr ha
      rw [chunks_of_ne_nil (by omega) ha, chunks_of_ne_nil (by omega) hb]
      obtain ⟨h1, h2⟩ := ih (a.drop 16).length (by simp; omega) (a.drop 16) (b.drop 16) (by simp [h]) rfl
      constructor
      · simp [h1]
      · intro p hp
        rw [List.zip_cons_cons, List.mem_cons] at hp
        rcases hp with rfl | hp
        · simp; omega
        · exact h2 p hp

theorem zipWith_pairs (blk inp out : Bytes) (h : inp.length = out.length) :
    List.zipWith (fun b (p : U8 × U8) => p.1 ^^^ b) blk (inp.zip out) = xorBytes inp blk := by
  induction inp generalizing blk out with
  | nil => cases blk <;> simp [xorBytes]
  | cons x xs ih =>
    match out, blk with
    | [], _ => simp at h
    | _ :: _, [] => simp [xorBytes]
    | y :: ys, b :: bs =>
      have := ih bs ys (by simpa using h)
      simp only [xorBytes, List.zip_cons_cons, List.zipWith_cons_cons] at this ⊢
      rw [this]

theorem inc32_ctr (nonce : Bytes) (hn : nonce.length = 12) (x : Nat) :
    Spec.Gcm.inc32 (nonce ++ toBE 4 x) = nonce ++ toBE 4 (x + 1) := by
  unfold Spec.Gcm.inc32
  rw [← hn, List.take_left, List.drop_left, beNat_toBE, ← toBE_mod 4 (x + 1), ← toBE_mod 4 (x % 256 ^ 4 + 1)]
  congr 2
  omega

variable (E : BlockCipher) (st : E.State) (F : Bytes → Bytes)

theorem block_eq (hF : ∀ x : Bytes, x.length = 16 → E.permute st x = F x) (nonce ctr : Bytes) (hn : nonce.length = 12)
    (hc : ctr.length = 16) (ht : ctr.take 12 = nonce) (i : U32) :
    block E st ctr i = (F (nonce ++ toBE 4 i.toNat), nonce ++ toBE 4 i.toNat) := by
  have e : copyAt ctr 12 (toBE 4 i.toNat) = nonce ++ toBE 4 i.toNat := by
    unfold copyAt
    rw [ht, toBE_length, List.drop_eq_nil_of_le (by omega), List.append_nil]
  unfold block
  simp only [e]
  rw [hF _ (by simp [hn])]

theorem processLoop_spec (hF : ∀ x : Bytes, x.length = 16 → E.permute st x = F x)
    (m : Mode) (nonce : Bytes) (hn : nonce.length = 12)
    (pairs : List (Bytes × Bytes)) (hp : ∀ p ∈ pairs, p.1.length = p.2.length ∧ p.1.length ≤ 16)
    (ctr : Bytes) (hc : ctr.length = 16) (ht : ctr.take 12 = nonce) (i : U32) :
    ((m = .release ∨ i.toNat + pairs.length + 1 < 2 ^ 32) →
      ∃ cs, processLoop E m st ctr i pairs = some cs ∧
        cs.flatten = Spec.Gcm.gctrBlocks F (nonce ++ toBE 4 i.toNat) (pairs.map Prod.fst)) ∧
    (¬ (m = .release ∨ i.toNat + pairs.length + 1 < 2 ^ 32) →
      processLoop E m st ctr i pairs = none) := by
  induction pairs generalizing ctr i with
  | nil =>
    constructor
    · intro h
      refine ⟨[], ?_, rfl⟩
      have : ∃ q, rangeNext m i = some q := by
        unfold rangeNext
        rcases h with h | h
        · subst h; simp
        · rw [addC_ok _ _ _ (by change i.toNat + 1 < 2 ^ 32; simpa using h)]; simp
      obtain ⟨q, hq⟩ := this
      simp [processLoop, hq]
    · intro h
      rw [not_or] at h
      cases m
      · simp only [processLoop, rangeNext]
        rw [addC_debug_overflow _ _ (by change ¬ (i.toNat + 1 < 2 ^ 32); simpa using h.2)]
        rfl
      · exact absurd rfl h.1
  | cons p ps ih =>
    obtain ⟨inp, out⟩ := p
    have hb := block_eq E st F hF nonce ctr hn hc ht i
    have hl := hp (inp, out) (by simp)
    have hlen : (nonce ++ toBE 4 i.toNat).length = 16 := by simp [hn]
    have htk : (nonce ++ toBE 4 i.toNat).take 12 = nonce := by rw [← hn, List.take_left]
    obtain ⟨ih1, ih2⟩ := ih (fun q hq => hp q (by simp [hq])) (nonce ++ toBE 4 i.toNat) hlen htk (i + 1)
    have hnext : ∀ h : m = .release ∨ i.toNat + 1 < 2 ^ 32, rangeNext m i = some (i, i + 1) := by
      intro h
      unfold rangeNext
      rcases h with h | h
      · subst h; simp
      · rw [addC_ok _ _ _ (by change i.toNat + 1 < 2 ^ 32; exact h)]; simp
    have hi1 : i.toNat + 1 < 2 ^ 32 → (i + 1).toNat = i.toNat + 1 := by
      intro h
      rw [BitVec.toNat_add]
      change (i.toNat + 1) % 2 ^ 32 = _
      omega
    have hctr : nonce ++ toBE 4 (i + 1).toNat = nonce ++ toBE 4 (i.toNat + 1) := by
      rw [BitVec.toNat_add]
      change nonce ++ toBE 4 ((i.toNat + 1) % 256 ^ 4) = _
      rw [toBE_mod]
    constructor
    · intro h
      have h' : m = .release ∨ i.toNat + 1 < 2 ^ 32 := by
        rcases h with h | h
        · exact .inl h
        · right; simp at h; omega
      have h'' : m = .release ∨ (i + 1).toNat + ps.length + 1 < 2 ^ 32 := by
        rcases h with h | h
        · exact .inl h
        · right; simp at h; rw [hi1 (by omega)]; omega
      obtain ⟨cs, hcs, hf⟩ := ih1 h''
      refine ⟨xorBytes inp (F (nonce ++ toBE 4 i.toNat)) :: cs, ?_, ?_⟩
      · simp only [processLoop, hnext h', Option.bind_eq_bind, Option.bind_some, hb, hcs,
          zipWith_pairs _ _ _ hl.1]
      · rw [List.flatten_cons, hf, List.map_cons, Spec.Gcm.gctrBlocks, inc32_ctr _ hn, hctr]
    · intro h
      rw [not_or] at h
      by_cases h1 : i.toNat + 1 < 2 ^ 32
      · have h'' : ¬ (m = .release ∨ (i + 1).toNat + ps.length + 1 < 2 ^ 32) := by
          rw [not_or]
          refine ⟨h.1, ?_⟩
          have := h.2
          simp at this; rw [hi1 h1]; omega
        simp only [processLoop, hnext (.inr h1), Option.bind_eq_bind, Option.bind_some, hb, ih2 h'',
          Option.bind_none]
      · cases m
        · simp only [processLoop, rangeNext]
          rw [addC_debug_overflow _ _ (by change ¬ (i.toNat + 1 < 2 ^ 32); exact h1)]
          rfl
        · exact absurd rfl h.1

theorem J0_eq (nonce : Bytes) : Spec.Gcm.J0 nonce = nonce ++ toBE 4 1 := rfl

theorem counter_props (nonce : Bytes) (hn : nonce.length = 12) :
    (counter nonce).length = 16 ∧ (counter nonce).take 12 = nonce := by
  unfold counter
  rw [copyAt_zero]
  constructor
  · simp [hn]
  · rw [← hn, List.take_left]

/-- What `process` does, in both build modes. -/
theorem process_spec (hF : ∀ x : Bytes, x.length = 16 → E.permute st x = F x)
    (m : Mode) (nonce input output : Bytes) (hn : nonce.length = 12) (hl : input.length = output.length) :
    process E m st (counter nonce) input output =
      if m = .release ∨ (input.length + 15) / 16 ≤ 2 ^ 32 - 4 then some (Spec.Gcm.crypt F nonce input)
      else none := by
  obtain ⟨hp1, hp2⟩ := chunks_pairs input output hl
  have hlen : ((chunks 16 input).zip (chunks 16 output)).length = (input.length + 15) / 16 := by
    have := congrArg List.length hp1
    rw [List.length_map] at this
    rw [this, chunks_length (by omega)]; rfl
  obtain ⟨hc, ht⟩ := counter_props nonce hn
  obtain ⟨h1, h2⟩ := processLoop_spec E st F hF m nonce hn _ hp2 (counter nonce) hc ht 2
  rw [hlen] at h1 h2
  have e2 : (2 : U32).toNat = 2 := rfl
  rw [e2] at h1 h2
  unfold process
  split
  · rename_i h
    obtain ⟨cs, hcs, hf⟩ := h1 (h.imp id (by omega))
    rw [hcs]
    simp only [Option.bind_eq_bind, Option.bind_some, hf, hp1]
    unfold Spec.Gcm.crypt Spec.Gcm.gctr
    rw [J0_eq, inc32_ctr _ hn]
  · rename_i h
    rw [h2 (fun h' => h (h'.imp id (by omega)))]
    rfl

theorem gctr_single (icb x : Bytes) (hx : x.length = 16) :
    Spec.Gcm.gctr F icb x = xorBytes x (F icb) := by
  unfold Spec.Gcm.gctr
  rw [chunks_singleton (by intro e; subst e; simp at hx) (by omega)]
  simp [Spec.Gcm.gctrBlocks]

theorem bytes_length (x : BitVec 128) : (Spec.Gcm.bytes x).length = 16 := by simp [Spec.Gcm.bytes]

theorem tag_spec (hF : ∀ x : Bytes, x.length = 16 → E.permute st x = F x)
    (m : Mode) (nonce a c ctr : Bytes) (hn : nonce.length = 12)
    (hc : ctr.length = 16) (ht : ctr.take 12 = nonce)
    (hal : a.length < 2 ^ 61) (hcl : c.length < 2 ^ 61) :
    Gcm.tag E m st c a ctr = some (Spec.Gcm.tag F nonce a c) := by
  unfold Gcm.tag Gcm.ghash Spec.Gcm.tag
  rw [block_eq E st F hF nonce ctr hn hc ht 1, GHash.ghash_spec m _ a c hal hcl, hF _ (by simp),
    gctr_single _ _ _ (bytes_length _), J0_eq]
  simp only [Option.bind_eq_bind, Option.bind_some]
  rw [xorBytes_comm]
  rfl

/-- The documented input conditions. -/
def Permitted (input nonce data output : Bytes) : Prop :=
  nonce.length = 12 ∧ input.length = output.length ∧ input.length < 2 ^ 36 - 32 ∧ data.length < 2 ^ 61

theorem checkBounds_some {a b n d : Bytes} (h : Permitted a n d b) : checkBounds a b n d = some () := by
  obtain ⟨h1, h2, h3, h4⟩ := h
  unfold checkBounds
  simp only [h1, h2, Option.bind_eq_bind]
  rw [show decide (2 ^ 36 > b.length + 32) = true by simp only [decide_eq_true_eq]; omega,
    show decide (2 ^ 61 > d.length) = true by simp only [decide_eq_true_eq]; omega]
  simp

theorem checkBounds_none {a b n d : Bytes} (h : ¬ Permitted a n d b) : checkBounds a b n d = none := by
  unfold checkBounds
  by_contra hne
  obtain ⟨u, hu⟩ := Option.ne_none_iff_exists'.mp hne
  simp only [Option.bind_eq_bind, Option.bind_eq_some_iff, assert_eq_some, beq_iff_eq, decide_eq_true_eq] at hu
  obtain ⟨_, h1, _, h2, _, h3, h4⟩ := hu
  exact h ⟨h1.symm, h2, by omega, by omega⟩

theorem gctrBlocks_length (hlen : ∀ x : Bytes, x.length = 16 → (F x).length = 16) (nonce : Bytes) (hn : nonce.length = 12)
    (cs : List Bytes) (hcs : ∀ c ∈ cs, c.length ≤ 16) (i : Nat) :
    (Spec.Gcm.gctrBlocks F (nonce ++ toBE 4 i) cs).length = cs.flatten.length := by
  induction cs generalizing i with
  | nil => rfl
  | cons c cs ih =>
    rw [Spec.Gcm.gctrBlocks, inc32_ctr _ hn, List.length_append, ih (fun c hc => hcs c (by simp [hc])),
      List.flatten_cons, List.length_append, xorBytes_length, hlen _ (by simp [hn]),
      Nat.min_eq_left (hcs c (by simp))]

theorem chunks_le (x : Bytes) : ∀ c ∈ chunks 16 x, c.length ≤ 16 := by
  obtain ⟨h1, h2⟩ := chunks_pairs x x rfl
  intro c hc
  rw [← h1] at hc
  obtain ⟨p, hp, rfl⟩ := List.mem_map.mp hc
  exact (h2 p hp).2

theorem crypt_length (hlen : ∀ x : Bytes, x.length = 16 → (F x).length = 16) (nonce : Bytes) (hn : nonce.length = 12)
    (x : Bytes) : (Spec.Gcm.crypt F nonce x).length = x.length := by
  unfold Spec.Gcm.crypt Spec.Gcm.gctr
  rw [J0_eq, inc32_ctr _ hn, gctrBlocks_length F hlen nonce hn _ (chunks_le x), chunks_flatten (by omega)]

theorem encrypt_ok (hF : ∀ x : Bytes, x.length = 16 → E.permute st x = F x)
    (hlen : ∀ x : Bytes, x.length = 16 → (F x).length = 16)
    (m : Mode) (input nonce data output : Bytes) (hp : Permitted input nonce data output)
    (hm : m = .release ∨ (input.length + 15) / 16 ≤ 2 ^ 32 - 4) :
    encrypt E m st input nonce data output =
      some (Spec.Gcm.crypt F nonce input, Spec.Gcm.tag F nonce data (Spec.Gcm.crypt F nonce input)) := by
  obtain ⟨hc, ht⟩ := counter_props nonce hp.1
  unfold encrypt
  rw [checkBounds_some hp]
  simp only [Option.bind_eq_bind, Option.bind_some]
  rw [process_spec E st F hF m nonce input output hp.1 hp.2.1, if_pos hm]
  simp only [Option.bind_some]
  rw [tag_spec E st F hF m nonce data _ _ hp.1 hc ht hp.2.2.2
    (by rw [crypt_length F hlen nonce hp.1]; have := hp.2.2.1; omega)]
  rfl

theorem encrypt_none (hF : ∀ x : Bytes, x.length = 16 → E.permute st x = F x)
    (m : Mode) (input nonce data output : Bytes)
    (h : ¬ (Permitted input nonce data output ∧ (m = .release ∨ (input.length + 15) / 16 ≤ 2 ^ 32 - 4))) :
    encrypt E m st input nonce data output = none := by
  unfold encrypt
  by_cases hp : Permitted input nonce data output
  · rw [checkBounds_some hp]
    simp only [Option.bind_eq_bind, Option.bind_some]
    rw [process_spec E st F hF m nonce input output hp.1 hp.2.1, if_neg (fun hm => h ⟨hp, hm⟩)]
    rfl
  · rw [checkBounds_none hp]; rfl

theorem decrypt_eq (hF : ∀ x : Bytes, x.length = 16 → E.permute st x = F x)
    (hlen : ∀ x : Bytes, x.length = 16 → (F x).length = 16)
    (m : Mode) (input nonce data t output : Bytes) (hp : Permitted input nonce data output) :
    decrypt E m st input nonce data t output =
      if t = Spec.Gcm.tag F nonce data input then
        if m = .release ∨ (input.length + 15) / 16 ≤ 2 ^ 32 - 4 then
          some (Spec.Gcm.crypt F nonce input, true)
        else none
      else some (output, false) := by
  obtain ⟨hc, ht⟩ := counter_props nonce hp.1
  have hp' : Permitted output nonce data input := ⟨hp.1, hp.2.1.symm, by rw [← hp.2.1]; exact hp.2.2.1, hp.2.2.2⟩
  unfold decrypt
  rw [checkBounds_some hp']
  simp only [Option.bind_eq_bind, Option.bind_some]
  rw [tag_spec E st F hF m nonce data _ _ hp.1 hc ht hp.2.2.2 (by have := hp.2.2.1; omega)]
  simp only [Option.bind_some]
  have htl : (Spec.Gcm.tag F nonce data input).length = 16 := by
    unfold Spec.Gcm.tag
    rw [gctr_single _ _ _ (bytes_length _), xorBytes_length, bytes_length, hlen _ (by simp [J0_eq, hp.1])]
    rfl
  rw [Props.C01_verify16 _ _ htl]
  simp only [Option.bind_some, decide_eq_true_eq]
  by_cases h : t = Spec.Gcm.tag F nonce data input
  · rw [if_pos h.symm, if_pos h, process_spec E st F hF m nonce input output hp.1 hp.2.1]
    split <;> rfl
  · rw [if_neg (fun e => h e.symm), if_neg h]

theorem decrypt_none (m : Mode) (input nonce data t output : Bytes) (hp : ¬ Permitted input nonce data output) :
    decrypt E m st input nonce data t output = none := by
  unfold decrypt
  rw [checkBounds_none (fun h => hp ⟨h.1, h.2.1.symm, by rw [← h.2.1]; exact h.2.2.1, h.2.2.2⟩)]
  rfl

/-! ### The keystream -/

/-- GCTR is xor with the concatenation of the encrypted counters. -/
theorem gctrBlocks_xor (hlen : ∀ x : Bytes, x.length = 16 → (F x).length = 16) (nonce : Bytes) (hn : nonce.length = 12)
    (x : Bytes) (i : Nat) :
    Spec.Gcm.gctrBlocks F (nonce ++ toBE 4 i) (chunks 16 x) =
      xorBytes x (((List.range ((x.length + 15) / 16)).map (fun j => F (nonce ++ toBE 4 (j + i)))).flatten) := by
  induction hk : x.length using Nat.strongRecOn generalizing x i with
  | _ k ih =>
    subst hk
    by_cases hx : x = []
    · subst hx; simp [xorBytes, Spec.Gcm.gctrBlocks]
    · have hpos : 0 < x.length := List.length_pos_iff.mpr hx
      rw [chunks_of_ne_nil (by omega) hx, Spec.Gcm.gctrBlocks, inc32_ctr _ hn,
        ih (x.drop 16).length (by simp; omega) (x.drop 16) (i + 1) rfl]
      rw [show (x.length + 15) / 16 = ((x.drop 16).length + 15) / 16 + 1 by rw [List.length_drop]; omega]
      rw [List.range_succ_eq_map, List.map_cons, List.flatten_cons, List.map_map]
      rw [show (fun j => F (nonce ++ toBE 4 (j + i))) ∘ Nat.succ = fun j => F (nonce ++ toBE 4 (j + (i + 1))) by
        funext j; simp only [Function.comp]; congr 3; omega]
      rw [Nat.zero_add]
      have hF16 : (F (nonce ++ toBE 4 i)).length = 16 := hlen _ (by simp [hn])
      generalize (List.map (fun j => F (nonce ++ toBE 4 (j + (i + 1)))) _).flatten = r
      rcases Nat.lt_or_ge x.length 16 with h | h
      · rw [List.drop_eq_nil_of_le (by omega), List.take_of_length_le (by omega)]
        unfold xorBytes
        rw [List.zipWith_nil_left, List.append_nil]
        conv_rhs => rw [← List.append_nil x]
        apply List.ext_getElem
        · simp; omega
        · intro n h1 h2
          simp at h1
          simp [List.getElem_append_left (show n < (F (nonce ++ toBE 4 i)).length by omega)]
      · conv_rhs => rw [← List.take_append_drop 16 x]
        rw [xorBytes_append (by simp [hF16]; omega)]

end CryptoPure.Proofs.Gcm
