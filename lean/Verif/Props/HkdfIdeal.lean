import Verif.Spec.KdfGame
import Verif.Props.HmacIdeal

/-! # C105: HKDF-Expand when the compression function of SHA-2 is random

As in C104; the attacker calls `hkdf::expand` under a random key of at least a digest and at most a block. -/

namespace CryptoPure.Props
open CryptoPure.Model Spec.Sha2 Proofs Proofs.HmacSha Proofs.HmacIdeal Switch
open Game hiding play forges

/-- The attacker's world with the crate's `expand`: `H f` is the hash function with the compression function `f`. -/
def hkdfWorld {w : Nat} (H : (Oct w → Bytes → Oct w) → Model.Sha2.HashFunction) (m : Mode) (f : Oct w → Bytes → Oct w) (prk : Bytes) :
    KdfGame.World w where
  compress := f
  derive info okm := Hkdf.expand (H f) m prk info okm

/-- The attacker's world where keys are the first bytes of the values of a function `U` that has nothing to do with `f`. -/
def idealKdf {w I l : Nat} (f : Oct w → Bytes → Oct w) (U : Keyed I l) : KdfGame.World w where
  compress := f
  derive info okm := some ((U.ask info).take okm.length)

/-! ## From `expand` to HMAC -/

section Reduce
variable {w : Nat} {R : Type}

/-- Ask for the `k` blocks after the block `prev`, which is `T(i)`. -/
def askTags (n : Nat) (info prev : Bytes) (i : Nat) : Nat → (Bytes → MacGame.Attacker w R) → MacGame.Attacker w R
  | 0, next => next []
  | k + 1, next => .tag (prev ++ info ++ [BitVec.ofNat 8 (i + 1)]) fun t =>
      askTags n info (t.take n) (i + 1) k fun r => next (t ++ r)

/-- The attacker on HMAC that runs an attacker on `expand`. -/
def viaTags (n : Nat) : KdfGame.Attacker w R → MacGame.Attacker w R
  | .stop r => .stop r
  | .compress H b next => .compress H b fun y => viaTags n (next y)
  | .derive info okm next => askTags n info [] 0 ((okm.length + n - 1) / n) fun r => viaTags n (next (r.take okm.length))

theorem blocksFrom_length (F : Bytes → Bytes) (n : Nat) (hF : ∀ x, (F x).length = n) (info prev : Bytes) (i k : Nat) :
    (blocksFrom F info prev i k).length = k * n := by
  induction k generalizing prev i with
  | zero => simp [blocksFrom]
  | succ k ih =>
    rw [blocksFrom, List.length_append, hF, ih]
    ring

theorem blocksFrom_prefix (F : Bytes → Bytes) (info prev : Bytes) (i k l : Nat) (h : k ≤ l) :
    blocksFrom F info prev i k <+: blocksFrom F info prev i l := by
  induction k generalizing prev i l with
  | zero => rw [blocksFrom]; exact List.nil_prefix
  | succ k ih =>
    obtain ⟨l, rfl⟩ := Nat.exists_eq_add_of_le' (Nat.one_le_of_lt (Nat.lt_of_lt_of_le (Nat.lt_succ_self k) h) : 1 ≤ l)
    rw [blocksFrom, blocksFrom]
    exact (List.prefix_append_right_inj _).mpr (ih _ _ _ (by omega))

theorem take_blocks (F : Bytes → Bytes) (n : Nat) (hn : 0 < n) (hF : ∀ x, (F x).length = n) (info : Bytes) (L : Nat) (hL : L ≤ 255 * n) :
    (blocksFrom F info [] 0 ((L + n - 1) / n)).take L = expandWith F info L := by
  unfold expandWith
  have hk : (L + n - 1) / n ≤ 255 := by
    rw [Nat.div_le_iff_le_mul_add_pred hn]
    rw [Nat.mul_comm] at hL
    omega
  obtain ⟨r, hr⟩ := blocksFrom_prefix F info [] 0 _ _ hk
  rw [← hr, List.take_append_of_le_length]
  rw [blocksFrom_length F n hF]
  have := Nat.div_add_mod (L + n - 1) n
  have := Nat.mod_lt (L + n - 1) hn
  rw [Nat.mul_comm]
  omega

theorem play_askTags (W : MacGame.World w) (F : Bytes → Bytes) (n N : Nat) (hF : ∀ x, (F x).length = n)
    (hW : ∀ M, M.length ≤ N → W.tag M = some (F M)) (info : Bytes) (hi : n + info.length + 1 ≤ N) (prev : Bytes) (hp : prev.length ≤ n) (i k : Nat)
    (next : Bytes → MacGame.Attacker w R) :
    MacGame.play W (askTags n info prev i k next) = MacGame.play W (next (blocksFrom F info prev i k)) := by
  induction k generalizing prev i next with
  | zero => rfl
  | succ k ih =>
    rw [askTags, blocksFrom, MacGame.play, hW _ (by simp; omega)]
    show MacGame.play W (askTags n info ((F _).take n) (i + 1) k _) = _
    rw [List.take_of_length_le (by rw [hF]), ih _ (by rw [hF])]

theorem play_viaTags (W : MacGame.World w) (F : Bytes → Bytes) (n N I L B : Nat) (cost : Nat → Nat → Nat) (hn : 0 < n) (hL : L ≤ 255 * n)
    (hF : ∀ x, (F x).length = n) (hW : ∀ M, M.length ≤ N → W.tag M = some (F M)) (hI : n + I + 1 ≤ N) (X : KdfGame.Attacker w R) (p c : Nat)
    (hX : X.Within B I L cost p c) (D : Bytes → Bytes → Option Bytes)
    (hD : ∀ info okm, info.length ≤ I → okm.length ≤ L → D info okm = some (expandWith F info okm.length)) :
    MacGame.play W (viaTags n X) = KdfGame.play ⟨W.compress, D⟩ X := by
  induction X generalizing p c with
  | stop r => rfl
  | compress H b next ih =>
    obtain ⟨-, p, rfl, h⟩ := hX
    exact ih _ _ _ (h _)
  | derive info okm next ih =>
    obtain ⟨h1, h2, c, rfl, h⟩ := hX
    rw [viaTags, play_askTags W F n N hF hW info (by omega) [] (by simp), take_blocks F n hn hF info _ (by omega), KdfGame.play]
    show _ = match D info okm with | none => none | some d => KdfGame.play _ (next d)
    rw [hD info okm h1 h2]
    exact ih _ _ _ (h _)

theorem within_mono {B N : Nat} {cost : Nat → Nat} (X : MacGame.Attacker w R) {p c t c' : Nat} (h : X.Within B N cost p c t) (hc : c ≤ c') :
    X.Within B N cost p c' t := by
  induction X generalizing p c t c' with
  | stop r => trivial
  | compress H b next ih =>
    obtain ⟨h1, p, rfl, h⟩ := h
    exact ⟨h1, p, rfl, fun y => ih y (h y) hc⟩
  | tag M next ih =>
    obtain ⟨h1, c, rfl, h⟩ := h
    exact ⟨h1, c' - cost M.length, by omega, fun y => ih y (h y) (by omega)⟩
  | verify M t next ih =>
    obtain ⟨h1, c, rfl, t, rfl, h⟩ := h
    exact ⟨h1, c' - cost M.length, by omega, t, rfl, fun y => ih y (h y) (by omega)⟩

theorem askTags_within {B N n : Nat} {cost : Nat → Nat} (hc : Monotone cost) (info : Bytes) (hi : n + info.length + 1 ≤ N) (prev : Bytes)
    (hp : prev.length ≤ n) (i k : Nat) (next : Bytes → MacGame.Attacker w R) (p c : Nat) (h : ∀ r, (next r).Within B N cost p c 0) :
    (askTags n info prev i k next).Within B N cost p (c + k * cost (n + info.length + 1)) 0 := by
  induction k generalizing prev i next with
  | zero => simpa [askTags] using h []
  | succ k ih =>
    have hl : (prev ++ info ++ [BitVec.ofNat 8 (i + 1)]).length ≤ n + info.length + 1 := by simp; omega
    have h1 := hc hl
    refine ⟨hl.trans hi, c + (k + 1) * cost (n + info.length + 1) - cost (prev ++ info ++ [BitVec.ofNat 8 (i + 1)]).length, ?_, fun t => ?_⟩
    · rw [Nat.add_mul, Nat.one_mul]; omega
    · refine within_mono _ (ih (t.take n) (by simp) (i + 1) (fun r => next (t ++ r)) (fun r => h _)) ?_
      rw [Nat.add_mul, Nat.one_mul]; omega

theorem viaTags_within {B N n I L : Nat} {cost : Nat → Nat} (hc : Monotone cost) (hI : n + I + 1 ≤ N) (X : KdfGame.Attacker w R) (p c : Nat)
    (hX : X.Within B I L (fun i l => (l + n - 1) / n * cost (n + i + 1)) p c) : (viaTags n X).Within B N cost p c 0 := by
  induction X generalizing p c with
  | stop r => trivial
  | compress H b next ih =>
    obtain ⟨h1, p, rfl, h⟩ := hX
    exact ⟨h1, p, rfl, fun y => ih y _ _ (h y)⟩
  | derive info okm next ih =>
    obtain ⟨h1, h2, c, rfl, h⟩ := hX
    exact askTags_within hc info (by omega) [] (by simp) _ _ _ _ _ (fun r => ih _ _ _ (h _))

end Reduce

/-! ## The outputs for all contexts are uniform -/

theorem prob_fiber {α β : Type} [Finite α] [Finite β] (f : α → β) (k : Nat) (hk : 0 < k) (h : ∀ b, {a | f a = b}.ncard = k) (P : β → Prop) :
    prob (fun a => P (f a)) = prob P := by
  classical
  have hcount : ∀ S : Set β, {a | f a ∈ S}.ncard = S.ncard * k := by
    intro S
    induction S, S.toFinite using Set.Finite.induction_on with
    | empty => simp
    | @insert b S hb hS ih =>
      have : {a | f a ∈ insert b S} = {a | f a = b} ∪ {a | f a ∈ S} := by ext a; simp [Set.mem_insert_iff]
      rw [this, Set.ncard_union_eq _ (Set.toFinite _) (Set.toFinite _), h, ih, Set.ncard_insert_of_notMem hb (Set.toFinite _)]
      · ring
      · rw [Set.disjoint_left]
        intro a ha ha'
        exact hb ((show f a = b from ha) ▸ ha')
  have h1 := hcount {b | P b}
  have h2 := hcount Set.univ
  simp only [Set.mem_univ, Set.ncard_univ] at h2
  have h2' : Nat.card α = Nat.card β * k := by
    rw [← h2, ← Set.ncard_univ]; congr 1
  unfold prob
  rw [show {a | P (f a)} = {a | f a ∈ {b | P b}} from rfl, h1, h2']
  push_cast
  rw [mul_div_mul_right]
  exact_mod_cast hk.ne'

theorem expandWith_length (F : Bytes → Bytes) (n : Nat) (hF : ∀ x, (F x).length = n) (info : Bytes) (L : Nat) (hL : L ≤ 255 * n) :
    (expandWith F info L).length = L := by
  unfold expandWith
  rw [List.length_take, blocksFrom_length F n hF]
  omega

/-- All that `expand` gives for contexts of at most `I` bytes, with `G` in place of HMAC. -/
def allKeys {N n : Nat} (I : Nat) (G : Keyed N n) : Keyed I (255 * n) := fun x =>
  ⟨expandWith G.ask x.1 (255 * n), expandWith_length _ n (ask_length G) _ _ (le_refl _)⟩

theorem allKeys_take {N n I : Nat} (G : Keyed N n) (info : Bytes) (hi : info.length ≤ I) (L : Nat) (hL : L ≤ 255 * n) :
    ((allKeys I G).ask info).take L = expandWith G.ask info L := by
  rw [Keyed.ask, dif_pos hi, allKeys]
  unfold expandWith
  rw [List.take_take, Nat.min_eq_left hL]

theorem allKeys_fiber {N n I : Nat} (hI : n + I + 1 ≤ N) (U : Keyed I (255 * n)) :
    {G : Keyed N n | allKeys I G = U}.ncard * Nat.card (Keyed I (255 * n)) = Nat.card (Keyed N n) := by
  classical
  have : Fintype {x : Bytes // x.length ≤ I} := Fintype.ofFinite _
  let reqs : List (Bytes × Bytes) := (Finset.univ : Finset {x : Bytes // x.length ≤ I}).toList.map fun x => (x.1, (U x).1)
  have h := C100_outputs_uniform N n reqs (by
      rw [List.map_map]
      exact (List.nodup_map_iff_inj_on (Finset.nodup_toList _)).mpr (fun a _ b _ e => Subtype.ext e))
    (by
      intro r hr
      obtain ⟨x, -, rfl⟩ := List.mem_map.mp hr
      have := x.2
      exact ⟨le_of_eq (U x).2, by simp only; omega⟩)
  rw [← h]
  have e1 : {G : Keyed N n | allKeys I G = U} = {F : Keyed N n | ∀ r ∈ reqs, expandWith F.ask r.1 r.2.length = r.2} := by
    ext G
    simp only [Set.mem_ofPred_eq, reqs, List.mem_map, Finset.mem_toList, Finset.mem_univ, true_and, forall_exists_index]
    constructor
    · rintro rfl r x rfl
      simp only
      rw [show ((allKeys I G x).1).length = 255 * n from (allKeys I G x).2]
      rfl
    · intro h'
      funext x
      apply Subtype.ext
      have := h' _ x rfl
      simp only [(U x).2] at this
      exact this
  have e2 : Nat.card (Keyed I (255 * n)) = 256 ^ (reqs.map fun r => r.2.length).sum := by
    have : (reqs.map fun r => r.2.length) = reqs.map fun _ => 255 * n := by
      refine List.map_congr_left fun r hr => ?_
      obtain ⟨x, -, rfl⟩ := List.mem_map.mp hr
      exact (U x).2
    rw [this, List.map_const', List.sum_replicate, show reqs.length = Nat.card {x : Bytes // x.length ≤ I} by simp [reqs], smul_eq_mul,
      Nat.mul_comm (Nat.card _), pow_mul, ← card_digest (255 * n), Nat.card_fun]
  rw [e1, e2]

theorem prob_allKeys {N n I : Nat} (hI : n + I + 1 ≤ N) (P : Keyed I (255 * n) → Prop) :
    prob (fun G : Keyed N n => P (allKeys I G)) = prob P := by
  have hpos : 0 < Nat.card (Keyed N n) := Nat.card_pos
  obtain ⟨U0⟩ : Nonempty (Keyed I (255 * n)) := inferInstance
  have h0 := allKeys_fiber hI U0
  refine prob_fiber (allKeys I) {G : Keyed N n | allKeys I G = U0}.ncard ?_ (fun U => ?_) P
  · by_contra hz
    rw [show {G : Keyed N n | allKeys I G = U0}.ncard = 0 by omega, Nat.zero_mul] at h0
    omega
  · have := allKeys_fiber hI U
    rw [← h0] at this
    exact Nat.eq_of_mul_eq_mul_right Nat.card_pos this

/-! ## The theorems -/

/-- The number of times `expand` evaluates the compression function on blocks of texts for HMAC, at most: for each block of the output, the previous
block of the output, the context and the counter. -/
def Variant.expandBlocks (v : Variant) (info okm : Nat) : Nat := (okm + v.size - 1) / v.size * v.blocks (v.size + info + 1)

theorem codeWith_lawful (v : Variant) (f : Oct v.width → Bytes → Oct v.width) :
    ∃ (hash : Bytes → Bytes) (R : Bytes → (v.codeWith f).State → Prop), Lawful (v.codeWith f) hash R ∧ (v.codeWith f).digestSize = v.size ∧ (v.codeWith f).blockSize = v.block := by
  cases v
  · exact ⟨_, _, Proofs.ShaWith.lawful_impl (f := f) Sha2.matches256 Model.Sha2.iv224 28 (by decide) (by decide) (by decide) (by decide) (by decide), rfl, rfl⟩
  · exact ⟨_, _, Proofs.ShaWith.lawful_impl (f := f) Sha2.matches256 Model.Sha2.iv256 32 (by decide) (by decide) (by decide) (by decide) (by decide), rfl, rfl⟩
  · exact ⟨_, _, Proofs.ShaWith.lawful_impl (f := f) Sha2.matches512 Model.Sha2.iv384 48 (by decide) (by decide) (by decide) (by decide) (by decide), rfl, rfl⟩
  · exact ⟨_, _, Proofs.ShaWith.lawful_impl (f := f) Sha2.matches512 Model.Sha2.iv512 64 (by decide) (by decide) (by decide) (by decide) (by decide), rfl, rfl⟩

theorem real_expand (v : Variant) (m : Mode) (f : Oct v.width → Bytes → Oct v.width) (prk : Bytes) (I L : Nat) (h1 : v.size ≤ prk.length)
    (h2 : prk.length ≤ v.block) (hI : v.block + (v.size + I + 1) < 2 ^ 61) (hL : L ≤ 255 * v.size) (hm : m = .debug → L < 254 * v.size) {R : Type}
    (X : KdfGame.Attacker v.width R) (p c : Nat) (hX : X.Within v.block I L v.expandBlocks p c) :
    MacGame.play (hmacWorld v.codeWith m f prk) (viaTags v.size X) = KdfGame.play (hkdfWorld v.codeWith m f prk) X := by
  obtain ⟨hash, Rl, L', hd, hb⟩ := codeWith_lawful v f
  have hs : 0 < v.size := by cases v <;> decide
  have hvb : v.block ≤ 128 := by cases v <;> decide
  have hlen : ∀ x, (Spec.hmac hash v.block prk x).length = v.size := fun x => by
    have := hmac_length L' prk x
    rw [hd, hb] at this
    exact this
  refine play_viaTags (hmacWorld v.codeWith m f prk) (Spec.hmac hash v.block prk) v.size (v.size + I + 1) I L v.block v.expandBlocks hs hL hlen
    (fun M hM => ?_) (le_refl _) X p c hX (hkdfWorld v.codeWith m f prk).derive (fun info okm hi ho => ?_)
  · show Hmac.wrapper _ m prk M = _
    rw [hmac_wrapper_spec L' m prk M (by omega) (by rw [hb]; omega), hb]
  · show Hkdf.expand _ m prk info okm = _
    rw [expand_spec prk info L' m okm (by omega) (by rw [hb, hd]; omega), hd, hb, if_pos ⟨h1, by omega, fun e => by have := hm e; omega⟩, expandWith_eq]
    unfold Spec.hkdfExpand
    refine congrArg (fun l => some (List.take okm.length l)) (List.flatMap_congr fun i _ => ?_)
    exact (blockWith_hmac _ hash v.block v.size prk info (fun x => by rw [L'.hashLen, hd]) (fun x _ => rfl) _).symm

/-- **`expand` is pseudorandom when the compression function is random.** The attacker evaluates a uniformly random compression function at most
`p` times, and has keys derived by `expand` under a random `prk` of `kl` bytes, for contexts that it chooses, at a cost of at most `c`. It ends with a
result. Any event `W` about that result has nearly the same probability as when the keys are the first bytes of the values of a random function of the
context that has nothing to do with the compression function: keys for different contexts are independent and uniform. -/
theorem C105_expand_prf (v : Variant) (m : Mode) (kl I L : Nat) (h1 : v.size ≤ kl) (h2 : kl ≤ v.block)
    (hI : v.block + (v.size + I + 1) < 2 ^ 61) (hL : L ≤ 255 * v.size) (hm : m = .debug → L < 254 * v.size) {R : Type}
    (X : KdfGame.Attacker v.width R) (p c : Nat) (hX : X.Within v.block I L v.expandBlocks p c) (W : Option R → Prop) :
    |prob (fun q : {k : Bytes // k.length = kl} × Fn v.width v.block => W (KdfGame.play (hkdfWorld v.codeWith m (fn q.2) q.1.1) X)) -
      prob (fun q : Fn v.width v.block × Keyed I (255 * v.size) => W (KdfGame.play (idealKdf (fn q.1) q.2) X))| ≤
    2 * p / 256 ^ kl + (c + 2) * (c + p + 3) / 256 ^ v.size := by
  have hs : 0 < v.size := by cases v <;> decide
  have hmono : Monotone v.blocks := fun a b h => by
    unfold Variant.blocks
    exact Nat.add_le_add_right (Nat.div_le_div_right (by omega)) _
  have h := C104_prf v m kl (v.size + I + 1) h2 hI (viaTags v.size X) p c 0 (viaTags_within hmono (le_refl _) X p c hX) W
  refine le_trans (le_of_eq ?_) h
  congr 2
  · congr 1
    funext q
    have hq := q.1.2
    rw [real_expand v m (fn q.2) q.1.1 I L (by omega) (by omega) hI hL hm X p c hX]
  · have e : ∀ (f : Oct v.width → Bytes → Oct v.width) (G : Keyed (v.size + I + 1) v.size),
        MacGame.play (idealWorld f G) (viaTags v.size X) = KdfGame.play (idealKdf f (allKeys I G)) X := fun f G =>
      play_viaTags (idealWorld f G) G.ask v.size (v.size + I + 1) I L v.block v.expandBlocks hs hL (ask_length G)
        (fun M _ => rfl) (le_refl _) X p c hX (idealKdf f (allKeys I G)).derive
        (fun info okm hi ho => congrArg some (allKeys_take G info hi okm.length (by omega)))
    simp only [e]
    rw [← prob_equiv (Equiv.prodComm (Keyed I (255 * v.size)) (Fn v.width v.block)),
      ← prob_equiv (Equiv.prodComm (Keyed (v.size + I + 1) v.size) (Fn v.width v.block))]
    have : Fintype (Fn v.width v.block) := Fintype.ofFinite _
    rw [prob_prod, prob_prod]
    congr 1
    refine Finset.sum_congr rfl fun F _ => ?_
    exact (prob_allKeys (le_refl (v.size + I + 1)) (fun U => W (KdfGame.play (idealKdf (fn F) U) X))).symm

/-- With the crate's own compression function the world is the crate's `expand`. -/
theorem C105_code (v : Variant) (m : Mode) (prk info okm : Bytes) :
    (hkdfWorld v.codeWith m v.compression prk).derive info okm = Hkdf.expand v.code m prk info okm := by
  unfold hkdfWorld
  rw [C104_code]

/-! ## A concrete case -/

/-- An attacker on `expand` with SHA-256: it derives 42 bytes for the context `[1]`, compresses a block made of them, and tells if the key for the context
`[2]` starts with the first byte of the result. -/
def tryKey : KdfGame.Attacker 32 Bool :=
  .derive [1] (zeros 42) fun d => .compress Model.Sha2.iv256 ((d ++ zeros 64).take 64) fun H => .derive [2] (zeros 1) fun d' =>
    .stop (d'.take 1 == (bytesOf H).take 1)

theorem tryKey_within : tryKey.Within Variant.sha256.block 1 42 Variant.sha256.expandBlocks 1 3 :=
  ⟨by decide, by decide, 1, by decide, fun t => ⟨by
    have : Variant.sha256.block = 64 := rfl
    rw [this]; simp, 0, rfl, fun H => ⟨by decide, by decide, 0, by decide, fun b => trivial⟩⟩⟩

example (m : Mode) : |prob (fun q : {k : Bytes // k.length = 32} × Fn 32 64 => KdfGame.play (hkdfWorld Variant.sha256.codeWith m (fn q.2) q.1.1) tryKey = some true) -
      prob (fun q : Fn 32 64 × Keyed 1 (255 * 32) => KdfGame.play (idealKdf (fn q.1) q.2) tryKey = some true)| ≤ 1 / 2 ^ 248 := by
  refine (C105_expand_prf .sha256 m 32 1 42 (by decide) (by decide) (by decide) (by decide) (fun _ => by decide) tryKey 1 3 tryKey_within (· = some true)).trans ?_
  have : Variant.sha256.size = 32 := rfl
  rw [this]
  norm_num

end CryptoPure.Props
