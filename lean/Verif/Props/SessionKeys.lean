import Verif.Props.HkdfReduction
import Verif.Props.MultiUser
import Verif.Props.Channel

/-! # C124: many keys from one secret

An application derives a key for each user (or direction, or epoch) by `hkdf::expand` under one random secret, each with a context of its own, and
uses them with the AEADs of the crate. C123 and C121 together. -/

namespace CryptoPure.Props
open CryptoPure.Model Spec.Sha2 Proofs Proofs.HmacSha Proofs.HmacPrf HmacTests Distinguisher
open Game hiding play forges

/-- Ask for the keys of `len` bytes for these contexts. -/
def askKeys {w : Nat} {R : Type} (len : Nat) : List Bytes → (List Bytes → KdfGame.Attacker w R) → KdfGame.Attacker w R
  | [], next => next []
  | info :: rest, next => .derive info (zeros len) fun t => askKeys len rest fun l => next (t :: l)

open Classical in
/-- Ask for the key of every user and say whether the keys have the property `P`. -/
noncomputable def keysTest {w u len : Nat} (info : Fin u → Bytes) (P : (Fin u → {k : Bytes // k.length = len}) → Prop) : KdfGame.Attacker w Bool :=
  askKeys len (List.ofFn info) fun l => .stop (decide (∃ keys : Fin u → {k : Bytes // k.length = len}, (∀ i, l[i.1]? = some (keys i).1) ∧ P keys))

theorem play_askKeys {w : Nat} {R : Type} (W : KdfGame.World w) (len : Nat) (D : Bytes → Bytes) (infos : List Bytes)
    (h : ∀ i ∈ infos, W.derive i (zeros len) = some (D i)) (next : List Bytes → KdfGame.Attacker w R) :
    KdfGame.play W (askKeys len infos next) = KdfGame.play W (next (infos.map D)) := by
  induction infos generalizing next with
  | nil => rfl
  | cons i rest ih =>
    rw [askKeys, KdfGame.play, h i (by simp)]
    exact ih (fun j hj => h j (by simp [hj])) _

theorem askKeys_within {w B I L : Nat} {R : Type} (cost : Nat → Nat → Nat) (c len : Nat) (hl : len ≤ L) (infos : List Bytes)
    (h : ∀ i ∈ infos, i.length ≤ I ∧ cost i.length len = c) (next : List Bytes → KdfGame.Attacker w R) (hn : ∀ l, (next l).Within B I L cost 0 0) :
    (askKeys len infos next).Within B I L cost 0 (infos.length * c) := by
  induction infos generalizing next with
  | nil => simpa [askKeys] using hn []
  | cons i rest ih =>
    have h1 := h i (by simp)
    refine ⟨h1.1, by simpa [zeros] using hl, rest.length * c, ?_, fun t => ih (fun j hj => h j (by simp [hj])) _ fun l => hn _⟩
    rw [show (zeros len).length = len by simp [zeros], h1.2, List.length_cons]
    ring

theorem play_keysTest {w u len : Nat} (W : KdfGame.World w) (info : Fin u → Bytes) (keys : Fin u → {k : Bytes // k.length = len})
    (h : ∀ i, W.derive (info i) (zeros len) = some (keys i).1) (P : (Fin u → {k : Bytes // k.length = len}) → Prop) :
    KdfGame.play W (keysTest info P) = some true ↔ P keys := by
  have e : ∀ i ∈ List.ofFn info, W.derive i (zeros len) = some ((W.derive i (zeros len)).getD []) := by
    intro x hx
    obtain ⟨i, rfl⟩ := (List.mem_ofFn' _ _).mp hx
    rw [h i]; rfl
  unfold keysTest
  rw [play_askKeys W len _ _ e]
  simp only [KdfGame.play, Option.some.injEq, decide_eq_true_eq]
  have e2 : ∀ i : Fin u, ((List.ofFn info).map fun x => (W.derive x (zeros len)).getD [])[i.1]? = some (keys i).1 := by
    intro i
    simp [h i]
  constructor
  · rintro ⟨keys', h1, h2⟩
    have : keys' = keys := by
      funext i
      have := (h1 i).symm.trans (e2 i)
      exact Subtype.ext (Option.some.inj this)
    rwa [← this]
  · exact fun hp => ⟨keys, e2, hp⟩

/-! ## The ideal keys -/

/-- The values of a random function at different points are independent. -/
theorem prob_points {B C ι : Type} [Finite B] [Finite C] [Nonempty C] [Finite ι] (pts : ι → B) (hp : Function.Injective pts) (P : (ι → C) → Prop) :
    prob (fun F : B → C => P (fun i => F (pts i))) = prob P := by
  classical
  have e1 := prob_equiv (Equiv.piEquivPiSubtypeProd (fun b => b ∈ Set.range pts) (fun _ => C))
    (fun q => P (fun i => q.1 ⟨pts i, i, rfl⟩))
  have e2 := prob_fst (β := {x // x ∉ Set.range pts} → C) (P := fun G : {x // x ∈ Set.range pts} → C => P (fun i => G ⟨pts i, i, rfl⟩))
  have e3 := prob_equiv ((Equiv.ofInjective pts hp).arrowCongr (Equiv.refl C)).symm P
  exact (show prob (fun F : B → C => P (fun i => F (pts i))) = _ from e1).trans (e2.trans e3)

/-- The first bytes of independent random values are independent random values. -/
theorem prob_takes {ι : Type} [Finite ι] {n len : Nat} (h : len ≤ n) (P : (ι → {k : Bytes // k.length = len}) → Prop) :
    prob (fun d : ι → {d : Bytes // d.length = n} => P (fun i => ⟨(d i).1.take len, by rw [List.length_take, (d i).2]; omega⟩)) = prob P := by
  let e : {d : Bytes // d.length = n} ≃ {k : Bytes // k.length = len} × {r : Bytes // r.length = n - len} :=
    { toFun := fun d => (⟨d.1.take len, by rw [List.length_take, d.2]; omega⟩, ⟨d.1.drop len, by rw [List.length_drop, d.2]⟩)
      invFun := fun x => ⟨x.1.1 ++ x.2.1, by rw [List.length_append, x.1.2, x.2.2]; omega⟩
      left_inv := fun d => Subtype.ext (List.take_append_drop len d.1)
      right_inv := fun x => by
        have h1 := x.1.2
        refine Prod.ext (Subtype.ext ?_) (Subtype.ext ?_)
        · simp [← h1]
        · simp [← h1] }
  have h1 := prob_equiv (((Equiv.refl ι).arrowCongr e).trans (Equiv.arrowProdEquivProdArrow _ _ _)) (fun x => P x.1)
  rw [prob_fst (P := P)] at h1
  exact h1

theorem prob_ideal {u I n len : Nat} (h : len ≤ n) (info : Fin u → Bytes) (hinj : Function.Injective info) (hi : ∀ i, (info i).length ≤ I)
    (P : (Fin u → {k : Bytes // k.length = len}) → Prop) :
    prob (fun U : Keyed I n => P (fun i => ⟨(U.ask (info i)).take len, by rw [List.length_take, ask_length]; omega⟩)) = prob P := by
  rw [← prob_takes h P, ← prob_points (B := {x : Bytes // x.length ≤ I}) (fun i => ⟨info i, hi i⟩)
    (fun i j hij => hinj (congrArg Subtype.val hij))]
  refine hmac_prob_congr fun U => ?_
  have : (fun i => (⟨(U.ask (info i)).take len, by rw [List.length_take, ask_length]; omega⟩ : {k : Bytes // k.length = len})) =
      fun i => ⟨(U ⟨info i, hi i⟩).1.take len, by rw [List.length_take, (U ⟨info i, hi i⟩).2]; omega⟩ := by
    funext i
    apply Subtype.ext
    show (U.ask (info i)).take len = _
    unfold Keyed.ask
    rw [dif_pos (hi i)]
  rw [this]

/-! ## The keys of the crate -/

/-- These are the keys that `hkdf::expand` of the crate derives from the secret `prk` for these contexts, into zeroed buffers of `len` bytes. -/
def Derived {u len : Nat} (v : Variant) (m : Mode) (prk : Bytes) (info : Fin u → Bytes) (keys : Fin u → {k : Bytes // k.length = len}) : Prop :=
  ∀ i, Hkdf.expand v.code m prk (info i) (zeros len) = some (keys i).1

/-- With these lengths there is always exactly one such family of keys: `expand` does not panic. -/
theorem C124_derived {u len : Nat} (v : Variant) (m : Mode) (prk : Bytes) (I : Nat) (h1 : v.size ≤ prk.length) (h2 : prk.length ≤ v.block)
    (hI : v.block + (v.size + I + 1) < 2 ^ 61) (hL : len ≤ 255 * v.size) (hm : m = .debug → len < 254 * v.size) (info : Fin u → Bytes)
    (hi : ∀ i, (info i).length ≤ I) : ∃! keys : Fin u → {k : Bytes // k.length = len}, Derived v m prk info keys := by
  have hs : 0 < v.size := by cases v <;> decide
  have hvb : v.block ≤ 128 := by cases v <;> decide
  have hd := v.digestSize_eq
  have hb := v.blockSize_eq
  have hlen : ∀ x, (Spec.hmac v.fips v.block prk x).length = v.size := fun x => by
    have := hmac_length v.lawful prk x
    rw [hd, hb] at this
    exact this
  have key : ∀ i, ∃ k : {k : Bytes // k.length = len}, Hkdf.expand v.code m prk (info i) (zeros len) = some k.1 := by
    intro i
    have := hi i
    refine ⟨⟨expandWith (Spec.hmac v.fips v.block prk) (info i) len, expandWith_length _ v.size hlen _ _ hL⟩, ?_⟩
    show _ = some (expandWith (Spec.hmac v.fips v.block prk) (info i) len)
    rw [expand_spec prk (info i) v.lawful m (zeros len) (by omega) (by rw [hb, hd]; omega), hd, hb,
      if_pos ⟨h1, by simpa [zeros] using hL, fun e => by simpa [zeros] using hm e⟩, expandWith_eq]
    unfold Spec.hkdfExpand
    rw [show (zeros len).length = len by simp [zeros]]
    refine congrArg (fun l => some (List.take len l)) (List.flatMap_congr fun j _ => ?_)
    exact (blockWith_hmac _ v.fips v.block v.size prk (info i) (fun x => by rw [v.lawful.hashLen, hd]) (fun x _ => rfl) _).symm
  choose keys hk using key
  refine ⟨keys, hk, fun keys' h' => ?_⟩
  funext i
  exact Subtype.ext (Option.some.inj ((h' i).symm.trans (hk i)))

/-- The sum of the two advantages of C123 for the attacker that derives the keys of `u` users and looks at them through `P`. -/
noncomputable def keysAdvantage {u len : Nat} (v : Variant) (kl : Nat) (info : Fin u → Bytes) (P : (Fin u → {k : Bytes // k.length = len}) → Prop) : ℚ :=
  keyAdvantage v kl (viaTags v.size (keysTest info P)) + outerAdvantage v (viaTags v.size (keysTest info P))

/-- **Derived keys are as good as independent random keys.** Whatever property of the keys one looks at: for keys derived by `expand` of the crate from one random
secret under different contexts its probability differs from its probability for independent uniform keys by at most the two advantages of C123, plus
`q (q - 1) / 2` times the probability that two texts collide in the inner hash, where `q` is the number of digests computed. -/
theorem C124_session_keys {u len : Nat} (v : Variant) (m : Mode) (kl I : Nat) (h1 : v.size ≤ kl) (h2 : kl ≤ v.block)
    (hI : v.block + (v.size + I + 1) < 2 ^ 61) (hL : len ≤ 255 * v.size) (hm : m = .debug → len < 254 * v.size) (info : Fin u → Bytes)
    (hinj : Function.Injective info) (hi : ∀ i, (info i).length ≤ I) (P : (Fin u → {k : Bytes // k.length = len}) → Prop)
    (δ : ℚ) (hδ0 : 0 ≤ δ)
    (hδ : ∀ M M' : Bytes, M.length ≤ v.size + I + 1 → M'.length ≤ v.size + I + 1 → M ≠ M' → innerCollision v M M' ≤ δ)
    (q : Nat) (hq : q = u * ((len + v.size - 1) / v.size)) :
    |prob (fun prk : {k : Bytes // k.length = kl} => ∃ keys : Fin u → {k : Bytes // k.length = len}, Derived v m prk.1 info keys ∧ P keys) - prob P| ≤
      keysAdvantage v kl info P + q * (q - 1) / 2 * δ := by
  have hw : (keysTest (w := v.width) info P).Within v.block I len v.expandTags 0 q := by
    rw [hq, show u * ((len + v.size - 1) / v.size) = (List.ofFn info).length * ((len + v.size - 1) / v.size) by rw [List.length_ofFn]]
    refine askKeys_within v.expandTags ((len + v.size - 1) / v.size) len (le_refl _) (List.ofFn info) (fun x hx => ?_) _ (fun l => trivial)
    obtain ⟨i, rfl⟩ := (List.mem_ofFn' _ _).mp hx
    exact ⟨hi i, rfl⟩
  have h := C123_expand_prf v m kl I len h1 h2 hI hL hm (keysTest info P) 0 q hw δ hδ0 hδ
  refine le_trans (le_of_eq ?_) h
  congr 2
  · refine hmac_prob_congr fun k => ?_
    have hk := k.2
    obtain ⟨keys, hd, hu⟩ := C124_derived (len := len) v m k.1 I (by omega) (by omega) hI hL hm info hi
    rw [play_keysTest (crateKdf v m k.1) info keys hd P]
    constructor
    · rintro ⟨keys', h1, h2⟩
      rwa [← hu keys' h1]
    · exact fun hp => ⟨keys, hd, hp⟩
  · rw [← prob_ideal hL info hinj hi P]
    refine hmac_prob_congr fun U => ?_
    refine (play_keysTest (idealKdf v.fipsCompress U) info _ (fun i => ?_) P).symm
    show some ((U.ask (info i)).take (zeros len).length) = _
    rw [show (zeros len).length = len by simp [zeros]]

/-! ## AEADs with derived keys -/

section Aead
variable {u : Nat}

/-- What can be said of one event, in the form used below. -/
theorem event_le {α β : Type} {P : α → Prop} {Q : β → Prop} {e c : ℚ} (h : |prob P - prob Q| ≤ e) (hQ : prob Q ≤ c) : prob P ≤ e + c := by
  have := (abs_le.mp h).2
  linarith

theorem events_le {α β : Type} {P P' : α → Prop} {Q Q' : β → Prop} {e e' c : ℚ} (h : |prob P - prob Q| ≤ e) (h' : |prob P' - prob Q'| ≤ e')
    (hQ : |prob Q - prob Q'| ≤ c) : |prob P - prob P'| ≤ e + e' + c := by
  have h1 := abs_le.mp h
  have h2 := abs_le.mp h'
  have h3 := abs_le.mp hQ
  rw [abs_le]
  constructor <;> linarith [h1.1, h1.2, h2.1, h2.2, h3.1, h3.2]

/-- **Forging AES-GCM of the crate under derived keys.** -/
theorem C124_aes_forgery (k : AesKind) (v : Variant) (m : Mode) (kl I : Nat) (h1 : v.size ≤ kl) (h2 : kl ≤ v.block)
    (hI : v.block + (v.size + I + 1) < 2 ^ 61) (info : Fin u → Bytes) (hinj : Function.Injective info) (hi : ∀ i, (info i).length ≤ I)
    (δ : ℚ) (hδ0 : 0 ≤ δ)
    (hδ : ∀ M M' : Bytes, M.length ≤ v.size + I + 1 → M'.length ≤ v.size + I + 1 → M ≠ M' → innerCollision v M M' ≤ δ)
    (q : Nat) (hq : q = u * ((4 * k.Nk + v.size - 1) / v.size))
    (A : MultiGame.Adversary u) (a n : Nat) (hn : n ≤ 2 ^ 32 - 3) (hA : MultiGame.Within authCount n A a) (right : Bool) :
    prob (fun prk : {k : Bytes // k.length = kl} => ∃ keys : Fin u → AesKey k, Derived v m prk.1 info keys ∧
        MultiGame.forges (aesGcm k m) right keys A []) ≤
      keysAdvantage v kl info (fun keys : Fin u → AesKey k => MultiGame.forges (aesGcm k m) right keys A []) + q * (q - 1) / 2 * δ +
        (aesAdvantages u k (MultiGame.forgeryTest (gcmScheme oracle m) gcmPoints right A) + a * n / 2 ^ 128) :=
  event_le (C124_session_keys v m kl I h1 h2 hI (by cases k <;> cases v <;> decide) (fun _ => by cases k <;> cases v <;> decide) info hinj hi _ δ hδ0 hδ q hq)
    (C121_aes_forgery k m A a n hn hA right)

/-- **Reading AES-GCM of the crate under derived keys.** -/
theorem C124_aes_confidentiality (k : AesKind) (v : Variant) (m : Mode) (kl I : Nat) (h1 : v.size ≤ kl) (h2 : kl ≤ v.block)
    (hI : v.block + (v.size + I + 1) < 2 ^ 61) (info : Fin u → Bytes) (hinj : Function.Injective info) (hi : ∀ i, (info i).length ≤ I)
    (δ : ℚ) (hδ0 : 0 ≤ δ)
    (hδ : ∀ M M' : Bytes, M.length ≤ v.size + I + 1 → M'.length ≤ v.size + I + 1 → M ≠ M' → innerCollision v M M' ≤ δ)
    (q : Nat) (hq : q = u * ((4 * k.Nk + v.size - 1) / v.size))
    (A : MultiGame.Adversary u) (a n : Nat) (hn : n ≤ 2 ^ 32 - 3) (hA : MultiGame.Within authCount n A a) :
    |prob (fun prk : {k : Bytes // k.length = kl} => ∃ keys : Fin u → AesKey k, Derived v m prk.1 info keys ∧
          MultiGame.play (aesGcm k m) false keys A [] = true) -
        prob (fun prk : {k : Bytes // k.length = kl} => ∃ keys : Fin u → AesKey k, Derived v m prk.1 info keys ∧
          MultiGame.play (aesGcm k m) true keys A [] = true)| ≤
      (keysAdvantage v kl info (fun keys : Fin u → AesKey k => MultiGame.play (aesGcm k m) false keys A [] = true) + q * (q - 1) / 2 * δ) +
      (keysAdvantage v kl info (fun keys : Fin u → AesKey k => MultiGame.play (aesGcm k m) true keys A [] = true) + q * (q - 1) / 2 * δ) +
        (aesAdvantages u k (MultiGame.guessTest (gcmScheme oracle m) gcmPoints false A) +
          aesAdvantages u k (MultiGame.guessTest (gcmScheme oracle m) gcmPoints true A) + 2 * (a * n / 2 ^ 128)) :=
  events_le
    (C124_session_keys v m kl I h1 h2 hI (by cases k <;> cases v <;> decide) (fun _ => by cases k <;> cases v <;> decide) info hinj hi _ δ hδ0 hδ q hq)
    (C124_session_keys v m kl I h1 h2 hI (by cases k <;> cases v <;> decide) (fun _ => by cases k <;> cases v <;> decide) info hinj hi _ δ hδ0 hδ q hq)
    (C121_aes_confidentiality k m A a n hn hA)

/-- **Forging ChaCha20-Poly1305 of the crate under derived keys.** -/
theorem C124_chacha_forgery (v : Variant) (m : Mode) (kl I : Nat) (h1 : v.size ≤ kl) (h2 : kl ≤ v.block)
    (hI : v.block + (v.size + I + 1) < 2 ^ 61) (info : Fin u → Bytes) (hinj : Function.Injective info) (hi : ∀ i, (info i).length ≤ I)
    (δ : ℚ) (hδ0 : 0 ≤ δ)
    (hδ : ∀ M M' : Bytes, M.length ≤ v.size + I + 1 → M'.length ≤ v.size + I + 1 → M ≠ M' → innerCollision v M M' ≤ δ)
    (q : Nat) (hq : q = u * ((32 + v.size - 1) / v.size))
    (A : MultiGame.Adversary u) (a n : Nat) (hn : n ≤ 2 ^ 34 - 16) (hA : MultiGame.Within authCount n A a) (right : Bool) :
    prob (fun prk : {k : Bytes // k.length = kl} => ∃ keys : Fin u → ChaChaKey, Derived v m prk.1 info keys ∧
        MultiGame.forges (chachaPoly m) right keys A []) ≤
      keysAdvantage v kl info (fun keys : Fin u → ChaChaKey => MultiGame.forges (chachaPoly m) right keys A []) + q * (q - 1) / 2 * δ +
        (chachaAdvantages u (MultiGame.forgeryTest (ccpOver m) ccpPoints right A) + a * (1480 * n) / 2 ^ 106) :=
  event_le (C124_session_keys v m kl I h1 h2 hI (by cases v <;> decide) (fun _ => by cases v <;> decide) info hinj hi _ δ hδ0 hδ q hq)
    (C121_chacha_forgery m A a n hn hA right)

/-- **Reading ChaCha20-Poly1305 of the crate under derived keys.** -/
theorem C124_chacha_confidentiality (v : Variant) (m : Mode) (kl I : Nat) (h1 : v.size ≤ kl) (h2 : kl ≤ v.block)
    (hI : v.block + (v.size + I + 1) < 2 ^ 61) (info : Fin u → Bytes) (hinj : Function.Injective info) (hi : ∀ i, (info i).length ≤ I)
    (δ : ℚ) (hδ0 : 0 ≤ δ)
    (hδ : ∀ M M' : Bytes, M.length ≤ v.size + I + 1 → M'.length ≤ v.size + I + 1 → M ≠ M' → innerCollision v M M' ≤ δ)
    (q : Nat) (hq : q = u * ((32 + v.size - 1) / v.size))
    (A : MultiGame.Adversary u) (a n : Nat) (hn : n ≤ 2 ^ 34 - 16) (hA : MultiGame.Within authCount n A a) :
    |prob (fun prk : {k : Bytes // k.length = kl} => ∃ keys : Fin u → ChaChaKey, Derived v m prk.1 info keys ∧
          MultiGame.play (chachaPoly m) false keys A [] = true) -
        prob (fun prk : {k : Bytes // k.length = kl} => ∃ keys : Fin u → ChaChaKey, Derived v m prk.1 info keys ∧
          MultiGame.play (chachaPoly m) true keys A [] = true)| ≤
      (keysAdvantage v kl info (fun keys : Fin u → ChaChaKey => MultiGame.play (chachaPoly m) false keys A [] = true) + q * (q - 1) / 2 * δ) +
      (keysAdvantage v kl info (fun keys : Fin u → ChaChaKey => MultiGame.play (chachaPoly m) true keys A [] = true) + q * (q - 1) / 2 * δ) +
        (chachaAdvantages u (MultiGame.guessTest (ccpOver m) ccpPoints false A) +
          chachaAdvantages u (MultiGame.guessTest (ccpOver m) ccpPoints true A) + 2 * (a * (1480 * n) / 2 ^ 106)) :=
  events_le
    (C124_session_keys v m kl I h1 h2 hI (by cases v <;> decide) (fun _ => by cases v <;> decide) info hinj hi _ δ hδ0 hδ q hq)
    (C124_session_keys v m kl I h1 h2 hI (by cases v <;> decide) (fun _ => by cases v <;> decide) info hinj hi _ δ hδ0 hδ q hq)
    (C121_chacha_confidentiality m A a n hn hA)

end Aead

/-! ## A concrete case -/

/-- Two directions of a connection. -/
def directions : Fin 2 → Bytes := fun i => [BitVec.ofNat 8 i.1]

theorem directions_inj : Function.Injective directions := by decide

example (m : Mode) : prob (fun prk : {k : Bytes // k.length = 32} => ∃ keys : Fin 2 → AesKey .aes256, Derived .sha256 m prk.1 directions keys ∧
        MultiGame.forges (aesGcm .aes256 m) true keys crossUser []) ≤
      keysAdvantage .sha256 32 directions (fun keys : Fin 2 → AesKey .aes256 => MultiGame.forges (aesGcm .aes256 m) true keys crossUser []) +
        (2 : Nat) * ((2 : Nat) - 1) / 2 * ((Variant.sha256.blocks 34 + 1) * 1 + 1 / 256 ^ 32) +
        (aesAdvantages 2 .aes256 (MultiGame.forgeryTest (gcmScheme oracle m) gcmPoints true crossUser) + (1 : Nat) * (3 : Nat) / 2 ^ 128) :=
  C124_aes_forgery .aes256 .sha256 m 32 1 (by decide) (by decide) (by decide) directions directions_inj (by decide) _ (by positivity)
    (C122_inner .sha256 (Or.inl rfl) 34 (by decide) 1 zero_le_one fun _ _ _ _ D _ => chainAdvantage_le_one .sha256 D) 2 rfl crossUser 1 3 (by norm_num)
    crossUser_within true

example (m : Mode) (prk : Bytes) (h : prk.length = 48) : ∃! keys : Fin 2 → ChaChaKey, Derived .sha384 m prk directions keys :=
  C124_derived .sha384 m prk 1 (by rw [h]; decide) (by rw [h]; decide) (by decide) (by decide) (fun _ => by decide) directions (by decide)

end CryptoPure.Props
