import Verif.Props.KeyExchange
import Verif.Props.HkdfPrf

/-! # C160: keys from an X25519 exchange together with a pre-shared key

Both parties apply `extract` to the shared secret of the exchange followed by a key that they already share. -/

namespace CryptoPure.Props.Hybrid
open CryptoPure.Model CryptoPure.Props Spec.Sha2 Proofs Proofs.HmacSha Switch
open Game hiding play forges

/-- A pre-shared key of `n` bytes. -/
abbrev Shared (n : Nat) := {k : Bytes // k.length = n}

/-- What an attacker sees and does when one party derives keys: the exchange, `extract` on the shared secret followed by the pre-shared key, and then the attacker chooses
contexts for `expand` and evaluates the compression function `f`. The attacker may depend on the public keys. -/
def derived {R : Type} (v : Variant) (m : Mode) (f : Oct v.width → Bytes → Oct v.width) (salt prk a b psk : Bytes) (X : Bytes × Bytes → KdfGame.Attacker v.width R) : Option R :=
  (exchange m a b).bind fun e => (Hkdf.extract (v.codeWith f) m salt (e.2 ++ psk) prk).bind fun d => KdfGame.play (hkdfWorld v.codeWith m f d) (X e.1)

/-- The same with the values of the random function `U` of the context in place of the keys. -/
def random {R : Type} {w I n : Nat} (m : Mode) (f : Oct w → Bytes → Oct w) (U : Keyed I n) (a b : Bytes) (X : Bytes × Bytes → KdfGame.Attacker w R) : Option R :=
  (exchange m a b).bind fun e => KdfGame.play (idealKdf f U) (X e.1)

/-- With the crate's own compression function this is the crate's HKDF. -/
theorem C160_code (v : Variant) (m : Mode) (salt prk a b psk info okm : Bytes) :
    derived v m v.compression salt prk a b psk (fun _ => .derive info okm .stop) =
    (exchange m a b).bind fun e => (Hkdf.extract v.code m salt (e.2 ++ psk) prk).bind fun d => Hkdf.expand v.code m d info okm := by
  unfold derived
  congr 1
  funext e
  rw [← C106_code]
  congr 1
  funext d
  rw [KdfGame.play]
  cases (hkdfWorld v.codeWith m v.compression d).derive info okm <;> rfl

/-- Both parties derive the same keys, when they have the same pre-shared key. -/
theorem C160_agree (v : Variant) (m : Mode) (salt prk a b psk : Bytes) (ha : a.length = 32) (hb : b.length = 32) :
    ∃ pa pb s, exchange m a b = some ((pa, pb), s) ∧ exchange m b a = some ((pb, pa), s) ∧ ∀ info okm,
      derived v m v.compression salt prk a b psk (fun _ => .derive info okm .stop) = derived v m v.compression salt prk b a psk (fun _ => .derive info okm .stop) := by
  obtain ⟨pa, pb, s, h1, h2, -⟩ := C108_exchange m a b ha hb
  refine ⟨pa, pb, s, h1, h2, fun info okm => ?_⟩
  rw [C160_code, C160_code, h1, h2]
  rfl

theorem logged_length {w : Nat} {R : Type} {B I L : Nat} {cost : Nat → Nat → Nat} (W : KdfGame.World w) (X : KdfGame.Attacker w R) (seen l : List Bytes) (p c : Nat)
    (h : X.Within B I L cost p c) (hl : KdfGame.play W (X.logged seen) = some l) : l.length ≤ seen.length + p := by
  induction X generalizing seen p c with
  | stop r =>
    rw [KdfGame.Attacker.logged, KdfGame.play] at hl
    rw [← Option.some.inj hl]
    omega
  | compress H b next ih =>
    obtain ⟨-, p, rfl, h⟩ := h
    rw [KdfGame.Attacker.logged, KdfGame.play] at hl
    have := ih _ _ _ _ (h _) hl
    rw [List.length_cons] at this
    omega
  | derive info okm next ih =>
    obtain ⟨-, -, c, rfl, h⟩ := h
    rw [KdfGame.Attacker.logged, KdfGame.play] at hl
    split at hl
    · cases hl
    · exact ih _ _ _ _ (h _) hl

/-- The chance that one of the blocks that the attacker compresses has the pre-shared key in its place. -/
theorem guess_shared {w : Nat} {R : Type} {B I L n : Nat} {cost : Nat → Nat → Nat} (W : KdfGame.World w) (X : KdfGame.Attacker w R) (s : Bytes) (p c : Nat)
    (h : X.Within B I L cost p c) : prob (fun psk : Shared n => KdfGame.Compresses W X (s ++ psk.1)) ≤ p / 256 ^ n := by
  cases hl : KdfGame.play W (X.logged []) with
  | none =>
    have : prob (fun psk : Shared n => KdfGame.Compresses W X (s ++ psk.1)) = 0 := by
      unfold prob
      have : {psk : Shared n | KdfGame.Compresses W X (s ++ psk.1)} = ∅ := by
        ext psk
        simp only [Set.mem_ofPred_eq, Set.mem_empty_iff_false, iff_false]
        rintro ⟨l, h1, -⟩
        rw [hl] at h1
        cases h1
      rw [this]; simp
    rw [this]
    positivity
  | some l =>
    have h1 : prob (fun psk : Shared n => KdfGame.Compresses W X (s ++ psk.1)) ≤ prob (fun psk : Shared n => psk.1 ∈ l.map fun b => (b.drop s.length).take n) := by
      refine prob_mono fun psk => ?_
      rintro ⟨l', h1, b, hb, t, e⟩
      rw [hl] at h1
      obtain rfl := Option.some.inj h1
      refine List.mem_map.mpr ⟨b, hb, ?_⟩
      rw [← e, List.append_assoc, List.drop_left, List.take_append_of_le_length (by rw [psk.2]), List.take_of_length_le (by rw [psk.2])]
    refine h1.trans ((prob_mem_list _ (1 / 256 ^ n) (fun t => ?_) _).trans ?_)
    · unfold prob
      rw [card_digest]
      push_cast
      refine div_le_div_of_nonneg_right ?_ (by positivity)
      have : {psk : Shared n | psk.1 = t}.ncard ≤ 1 := by
        rw [Set.ncard_le_one_iff]
        intro a b ha hb
        exact Subtype.ext (Eq.trans ha (Eq.symm hb))
      exact_mod_cast this
    · rw [List.length_map, mul_one_div]
      refine div_le_div_of_nonneg_right ?_ (by positivity)
      have := logged_length W X [] l p c h hl
      rw [List.length_nil, Nat.zero_add] at this
      exact_mod_cast this

theorem exchange_all (m : Mode) : ∃ e : SecretKey × SecretKey → (Bytes × Bytes) × Bytes, (∀ k, exchange m k.1.1 k.2.1 = some (e k)) ∧ ∀ k, (e k).2.length = 32 := by
  have hex : ∀ k : SecretKey × SecretKey, ∃ e : (Bytes × Bytes) × Bytes, exchange m k.1.1 k.2.1 = some e ∧ e.2.length = 32 := by
    intro k
    obtain ⟨pa, pb, s, h, -, -, -, h'⟩ := C108_exchange m k.1.1 k.2.1 k.1.2 k.2.2
    exact ⟨_, h, h'⟩
  choose e he hl using hex
  exact ⟨e, he, hl⟩

variable (v : Variant) (m : Mode) (salt : Bytes) (hs : salt.length ≤ v.block) (I L : Nat)
  (hI : v.block + (v.size + I + 1) < 2 ^ 61) (hL : L ≤ 255 * v.size) (hm : m = .debug → L < 254 * v.size) (prk : Bytes) (hprk : prk.length = v.size) {R : Type} (p c : Nat)
include hs hI hL hm hprk

/-- **The pre-shared key protects, also when X25519 does not.** The pre-shared key of `n` bytes is uniformly random, and so is the compression function. The attacker knows both
secret keys of the exchange. It evaluates the compression function at most `p` times, and has keys derived for contexts that it chooses at a cost of at most `c`. It can hardly tell
these keys from the first bytes of the values of a random function: there is no condition on X25519. -/
theorem C160_shared_key_protects (n : Nat) (hn : 32 + n ≤ v.room) (X : SecretKey × SecretKey → Bytes × Bytes → KdfGame.Attacker v.width R)
    (hX : ∀ k pks, (X k pks).Within v.block I L v.expandBlocks p c) (W : Option R → Prop) :
    |prob (fun q : ((SecretKey × SecretKey) × Shared n) × Fn v.width v.block => W (derived v m (fn q.2) salt prk q.1.1.1.1 q.1.1.2.1 q.1.2.1 (X q.1.1))) -
      prob (fun q : ((SecretKey × SecretKey) × Shared n) × (Fn v.width v.block × Keyed I (255 * v.size)) =>
        W (random m (fn q.2.1) q.2.2 q.1.1.1.1 q.1.1.2.1 (X q.1.1)))| ≤ p / 256 ^ n + leakError v.size p c := by
  obtain ⟨e, he, hl⟩ := exchange_all m
  have : Nonempty SecretKey := ⟨⟨zeros 32, by decide⟩⟩
  have : Nonempty (Shared n) := ⟨⟨zeros n, by simp⟩⟩
  have h := C107_leak v m salt hs (fun k : (SecretKey × SecretKey) × Shared n => (e k.1).2 ++ k.2.1) I L (fun k => by rw [List.length_append, hl, k.2.2]; exact hn) hI hL hm prk hprk
    (fun k => X k.1 (e k.1).1) p c (fun k => hX _ _) (fun _ => W)
  unfold derived random
  simp only [he, Option.bind_some]
  refine h.trans (add_le_add ?_ (le_refl _))
  let E : ((SecretKey × SecretKey) × Shared n) × (Fn v.width v.block × Keyed I (255 * v.size)) ≃ Shared n × ((SecretKey × SecretKey) × (Fn v.width v.block × Keyed I (255 * v.size))) :=
    { toFun := fun x => (x.1.2, (x.1.1, x.2)), invFun := fun y => ((y.2.1, y.1), y.2.2), left_inv := fun _ => rfl, right_inv := fun _ => rfl }
  rw [← prob_equiv E.symm]
  refine prob_prod_le _ _ fun y => ?_
  exact guess_shared (idealKdf (fn y.2.1) y.2.2) (X y.1 (e y.1).1) (e y.1).2 p c (hX _ _)

/-- **The same against an attacker who takes part in the exchange.** For every public key, however the attacker made it, and although the attacker knows the party's secret key and
the result of `dh`: the keys derived from this result and the pre-shared key look random. -/
theorem C160_shared_key_protects_active (n : Nat) (hn : 32 + n ≤ v.room) (pk a : Bytes) (hpk : pk.length = 32) (ha : a.length = 32) (X : Bytes → KdfGame.Attacker v.width R)
    (hX : ∀ s, (X s).Within v.block I L v.expandBlocks p c) (W : Option R → Prop) :
    |prob (fun q : Shared n × Fn v.width v.block => W ((Model.X25519.dh m pk a).bind fun s => (Hkdf.extract (v.codeWith (fn q.2)) m salt (s ++ q.1.1) prk).bind fun d =>
        KdfGame.play (hkdfWorld v.codeWith m (fn q.2) d) (X s))) -
      prob (fun q : Fn v.width v.block × Keyed I (255 * v.size) => W ((Model.X25519.dh m pk a).bind fun s => KdfGame.play (idealKdf (fn q.1) q.2) (X s)))| ≤
    p / 256 ^ n + leakError v.size p c := by
  have : Nonempty (Shared n) := ⟨⟨zeros n, by simp⟩⟩
  obtain ⟨s, hd, hsl⟩ : ∃ s, Model.X25519.dh m pk a = some s ∧ s.length = 32 := by
    rw [(X25519.C35_dh_rfc7748 m pk a hpk ha).1]
    exact ⟨_, rfl, by simp [Spec.X25519.x25519, Spec.X25519.encodeU]⟩
  have h := C107_leak v m salt hs (fun k : Shared n => s ++ k.1) I L (fun k => by rw [List.length_append, k.2, hsl]; exact hn) hI hL hm prk hprk
    (fun _ => X s) p c (fun _ => hX s) (fun _ => W)
  rw [prob_snd (α := Shared n) (P := fun q : Fn v.width v.block × Keyed I (255 * v.size) => W (KdfGame.play (idealKdf (fn q.1) q.2) (X s)))] at h
  simp only [hd, Option.bind_some]
  refine h.trans (add_le_add ?_ (le_refl _))
  refine prob_prod_le _ _ fun y => ?_
  exact guess_shared (idealKdf (fn y.1) y.2) (X s) s p c (hX s)

/-- **The exchange protects, also when the pre-shared key is known.** For every pre-shared key, known to the attacker: the keys look random unless the attacker evaluates
the compression function on a block that starts with the shared secret of the exchange, of which it knows the public keys only. -/
theorem C160_exchange_protects (psk : Bytes) (hn : 32 + psk.length ≤ v.room) (X : Bytes × Bytes → KdfGame.Attacker v.width R)
    (hX : ∀ pks, (X pks).Within v.block I L v.expandBlocks p c) (W : Option R → Prop) :
    |prob (fun q : (SecretKey × SecretKey) × Fn v.width v.block => W (derived v m (fn q.2) salt prk q.1.1.1 q.1.2.1 psk X)) -
      prob (fun q : (SecretKey × SecretKey) × (Fn v.width v.block × Keyed I (255 * v.size)) => W (random m (fn q.2.1) q.2.2 q.1.1.1 q.1.2.1 X))| ≤
    prob (fun q : (SecretKey × SecretKey) × (Fn v.width v.block × Keyed I (255 * v.size)) => ∃ pks s, exchange m q.1.1.1 q.1.2.1 = some (pks, s) ∧
      KdfGame.Compresses (idealKdf (fn q.2.1) q.2.2) (X pks) s) + leakError v.size p c := by
  obtain ⟨e, he, hl⟩ := exchange_all m
  have : Nonempty SecretKey := ⟨⟨zeros 32, by decide⟩⟩
  have h := C107_leak v m salt hs (fun k : SecretKey × SecretKey => (e k).2 ++ psk) I L (fun k => by rw [List.length_append, hl]; exact hn) hI hL hm prk hprk
    (fun k => X (e k).1) p c (fun k => hX _) (fun _ => W)
  unfold derived random
  simp only [he, Option.bind_some]
  refine h.trans (add_le_add (prob_mono fun q => ?_) (le_refl _))
  rintro ⟨l, h1, b, hb, hp⟩
  exact ⟨_, _, rfl, l, h1, b, hb, (List.prefix_append _ _).trans hp⟩

omit hs hI hL hm hprk

/-! ## Concrete cases -/

/-- An attacker who knows both secret keys: it tries the pre-shared key of zeros, and looks at a key. -/
def tryZeros (k : SecretKey × SecretKey) (_ : Bytes × Bytes) : KdfGame.Attacker 64 Bool :=
  .compress Model.Sha2.iv512 (k.1.1 ++ zeros 96) fun H => .derive [1] (zeros 42) fun d => .stop (d.take 1 == (bytesOf H).take 1)

theorem tryZeros_within (k : SecretKey × SecretKey) (pks : Bytes × Bytes) : (tryZeros k pks).Within Variant.sha512.block 1 42 Variant.sha512.expandBlocks 1 1 :=
  ⟨by
    have : Variant.sha512.block = 128 := rfl
    rw [this, List.length_append, k.1.2]; simp, 0, rfl, fun H => ⟨by decide, by decide, 0, by decide, fun b => trivial⟩⟩

/-- For it the keys of HKDF-SHA-512 with a pre-shared key of 32 bytes look random. -/
example (m : Mode) (W : Option Bool → Prop) :
    |prob (fun q : ((SecretKey × SecretKey) × Shared 32) × Fn 64 128 => W (derived .sha512 m (fn q.2) [1, 2] (zeros 64) q.1.1.1.1 q.1.1.2.1 q.1.2.1 (tryZeros q.1.1))) -
      prob (fun q : ((SecretKey × SecretKey) × Shared 32) × (Fn 64 128 × Keyed 1 (255 * 64)) =>
        W (random m (fn q.2.1) q.2.2 q.1.1.1.1 q.1.1.2.1 (tryZeros q.1.1)))| ≤ 1 / 2 ^ 255 := by
  refine (C160_shared_key_protects .sha512 m [1, 2] (by decide) 1 42 (by decide) (by decide) (fun _ => by decide) (zeros 64) (by decide) 1 1 32 (by decide) tryZeros
    tryZeros_within W).trans ?_
  have : Variant.sha512.size = 64 := rfl
  rw [this]
  unfold leakError
  norm_num

/-- The attacker of C108, who knows a pre-shared key of 16 bytes, with HKDF-SHA-256. -/
example (m : Mode) (W : Option Bool → Prop) :
    |prob (fun q : (SecretKey × SecretKey) × Fn 32 64 => W (derived .sha256 m (fn q.2) [] (zeros 32) q.1.1.1 q.1.2.1 (zeros 16) lookOnly)) -
      prob (fun q : (SecretKey × SecretKey) × (Fn 32 64 × Keyed 1 (255 * 32)) => W (random m (fn q.2.1) q.2.2 q.1.1.1 q.1.2.1 lookOnly))| ≤
    prob (fun q : (SecretKey × SecretKey) × (Fn 32 64 × Keyed 1 (255 * 32)) => ∃ pks s, exchange m q.1.1.1 q.1.2.1 = some (pks, s) ∧
      KdfGame.Compresses (idealKdf (fn q.2.1) q.2.2) (lookOnly pks) s) + leakError 32 0 3 :=
  C160_exchange_protects .sha256 m [] (by decide) 1 42 (by decide) (by decide) (fun _ => by decide) (zeros 32) (by decide) 0 3 (zeros 16) (by decide) lookOnly lookOnly_within W

end CryptoPure.Props.Hybrid
