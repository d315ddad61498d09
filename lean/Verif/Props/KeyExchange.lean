import Verif.Props.HkdfLeak
import Verif.Props.X25519

/-! # C108: keys derived from an X25519 key exchange -/

namespace CryptoPure.Props
open CryptoPure.Model Spec.Sha2 Proofs Proofs.HmacSha Switch
open Game hiding play forges

/-- Two parties with the secret keys `a` and `b` compute their public keys, and the first computes the shared secret from the public key of the second.
`none` is a panic. -/
def exchange (m : Mode) (a b : Bytes) : Option ((Bytes × Bytes) × Bytes) :=
  (Model.X25519.genPk m a).bind fun pa => (Model.X25519.genPk m b).bind fun pb => (Model.X25519.dh m pb a).map fun s => ((pa, pb), s)

/-- The exchange works, and the second party gets the same secret. -/
theorem C108_exchange (m : Mode) (a b : Bytes) (ha : a.length = 32) (hb : b.length = 32) :
    ∃ pa pb s, exchange m a b = some ((pa, pb), s) ∧ exchange m b a = some ((pb, pa), s) ∧ pa.length = 32 ∧ pb.length = 32 ∧ s.length = 32 := by
  obtain ⟨pa, pb, s, h1, h2, h3, h4⟩ := X25519.C37_key_agreement m a b ha hb
  have l1 : pa.length = 32 := by
    rw [(X25519.C35_dh_rfc7748 m a a ha ha).2] at h1
    rw [← Option.some.inj h1]
    simp [Spec.X25519.x25519, Spec.X25519.encodeU]
  have l2 : pb.length = 32 := by
    rw [(X25519.C35_dh_rfc7748 m b b hb hb).2] at h2
    rw [← Option.some.inj h2]
    simp [Spec.X25519.x25519, Spec.X25519.encodeU]
  have l3 : s.length = 32 := by
    rw [(X25519.C35_dh_rfc7748 m pa b l1 hb).1] at h3
    rw [← Option.some.inj h3]
    simp [Spec.X25519.x25519, Spec.X25519.encodeU]
  exact ⟨pa, pb, s, by simp [exchange, h1, h2, h4], by simp [exchange, h1, h2, h3], l1, l2, l3⟩

/-- A secret key. -/
abbrev SecretKey := {k : Bytes // k.length = 32}

/-- **Keys derived from an X25519 exchange.** Both secret keys are uniformly random. The attacker knows both public keys. The parties apply `extract` to the
shared secret, and the attacker has keys derived by `expand` for contexts that it chooses, at a cost of at most `c`, and evaluates the (random) compression function at
most `p` times. It can hardly tell these keys from the first bytes of the values of a random function of the context, unless it solves the Diffie-Hellman problem:
in the world with the random function, where it only knows the public keys, it would evaluate the compression function on a block that starts with the shared secret. -/
theorem C108_key_exchange (v : Variant) (m : Mode) (salt : Bytes) (hs : salt.length ≤ v.block) (I L : Nat)
    (hI : v.block + (v.size + I + 1) < 2 ^ 61) (hL : L ≤ 255 * v.size) (hm : m = .debug → L < 254 * v.size) (prk : Bytes) (hprk : prk.length = v.size) {R : Type}
    (X : Bytes × Bytes → KdfGame.Attacker v.width R) (p c : Nat) (hX : ∀ pks, (X pks).Within v.block I L v.expandBlocks p c) (W : Option R → Prop) :
    |prob (fun q : (SecretKey × SecretKey) × Fn v.width v.block => W ((exchange m q.1.1.1 q.1.2.1).bind fun e =>
        (Hkdf.extract (v.codeWith (fn q.2)) m salt e.2 prk).bind fun d => KdfGame.play (hkdfWorld v.codeWith m (fn q.2) d) (X e.1))) -
      prob (fun q : (SecretKey × SecretKey) × (Fn v.width v.block × Keyed I (255 * v.size)) => W ((exchange m q.1.1.1 q.1.2.1).bind fun e =>
        KdfGame.play (idealKdf (fn q.2.1) q.2.2) (X e.1)))| ≤
    prob (fun q : (SecretKey × SecretKey) × (Fn v.width v.block × Keyed I (255 * v.size)) => ∃ pks s, exchange m q.1.1.1 q.1.2.1 = some (pks, s) ∧
      KdfGame.Compresses (idealKdf (fn q.2.1) q.2.2) (X pks) s) + leakError v.size p c := by
  have hex : ∀ k : SecretKey × SecretKey, ∃ e : (Bytes × Bytes) × Bytes, exchange m k.1.1 k.2.1 = some e ∧ e.2.length = 32 := by
    intro k
    obtain ⟨pa, pb, s, h, -, -, -, h'⟩ := C108_exchange m k.1.1 k.2.1 k.1.2 k.2.2
    exact ⟨_, h, h'⟩
  choose e he hl using hex
  have : Nonempty SecretKey := ⟨⟨zeros 32, by decide⟩⟩
  have h := C107_leak v m salt hs (fun k : SecretKey × SecretKey => (e k).2) I L (fun k => by rw [hl]; cases v <;> decide) hI hL hm prk hprk (fun k => X (e k).1) p c
    (fun k => hX _) (fun _ => W)
  have e1 : ∀ q : (SecretKey × SecretKey) × (Fn v.width v.block × Keyed I (255 * v.size)), (∃ pks s, exchange m q.1.1.1 q.1.2.1 = some (pks, s) ∧
      KdfGame.Compresses (idealKdf (fn q.2.1) q.2.2) (X pks) s) ↔ KdfGame.Compresses (idealKdf (fn q.2.1) q.2.2) (X (e q.1).1) (e q.1).2 := by
    intro q
    constructor
    · rintro ⟨pks, s, h1, h2⟩
      rw [he] at h1
      rw [Option.some.inj h1]
      exact h2
    · intro h
      exact ⟨_, _, he q.1, h⟩
  simp only [e1]
  simp only [he, Option.bind_some]
  exact h

/-! ## Concrete cases -/

/-- An attacker that sees 42 bytes for the context `[1]`, tells if the key for the context `[2]` starts like the first public key, and never compresses anything. -/
def lookOnly (pks : Bytes × Bytes) : KdfGame.Attacker 32 Bool :=
  .derive [1] (zeros 42) fun d => .derive [2] (zeros 1) fun d' => .stop (d'.take 1 == pks.1.take 1 && d.take 1 == pks.2.take 1)

theorem lookOnly_within (pks : Bytes × Bytes) : (lookOnly pks).Within Variant.sha256.block 1 42 Variant.sha256.expandBlocks 0 3 :=
  ⟨by decide, by decide, 1, by decide, fun t => ⟨by decide, by decide, 0, by decide, fun b => trivial⟩⟩

/-- For it the keys look random, with no condition. -/
example (m : Mode) (W : Option Bool → Prop) :
    |prob (fun q : (SecretKey × SecretKey) × Fn 32 64 => W ((exchange m q.1.1.1 q.1.2.1).bind fun e =>
        (Hkdf.extract (Variant.sha256.codeWith (fn q.2)) m [1, 2] e.2 (zeros 32)).bind fun d =>
          KdfGame.play (hkdfWorld Variant.sha256.codeWith m (fn q.2) d) (lookOnly e.1))) -
      prob (fun q : (SecretKey × SecretKey) × (Fn 32 64 × Keyed 1 (255 * 32)) => W ((exchange m q.1.1.1 q.1.2.1).bind fun e =>
        KdfGame.play (idealKdf (fn q.2.1) q.2.2) (lookOnly e.1)))| ≤ 1 / 2 ^ 246 := by
  refine (C108_key_exchange .sha256 m [1, 2] (by decide) 1 42 (by decide) (by decide) (fun _ => by decide) (zeros 32) (by decide) lookOnly 0 3
    lookOnly_within W).trans ?_
  have h0 : ∀ (f : Oct 32 → Bytes → Oct 32) (U : Keyed 1 (255 * 32)) pks s, ¬ KdfGame.Compresses (idealKdf f U) (lookOnly pks) s := by
    rintro f U pks s ⟨l, h1, b, h2, -⟩
    have : l = [] := (Option.some.inj h1).symm
    rw [this] at h2
    simp at h2
  have h1 : prob (fun q : (SecretKey × SecretKey) × (Fn Variant.sha256.width Variant.sha256.block × Keyed 1 (255 * Variant.sha256.size)) =>
      ∃ pks s, exchange m q.1.1.1 q.1.2.1 = some (pks, s) ∧ KdfGame.Compresses (idealKdf (fn q.2.1) q.2.2) (lookOnly pks) s) = 0 := by
    unfold prob
    have : {q : (SecretKey × SecretKey) × (Fn Variant.sha256.width Variant.sha256.block × Keyed 1 (255 * Variant.sha256.size)) |
      ∃ pks s, exchange m q.1.1.1 q.1.2.1 = some (pks, s) ∧ KdfGame.Compresses (idealKdf (fn q.2.1) q.2.2) (lookOnly pks) s} = ∅ := by
      ext q
      simp only [Set.mem_ofPred_eq, Set.mem_empty_iff_false, iff_false]
      rintro ⟨pks, s, -, h⟩
      exact h0 _ _ _ _ h
    rw [this]; simp
  rw [h1]
  have : Variant.sha256.size = 32 := rfl
  rw [this]
  unfold leakError
  norm_num

/-- An attacker that guesses the shared secret does compress a block that starts with it. -/
example (m : Mode) (f : Oct 32 → Bytes → Oct 32) (U : Keyed 1 (255 * 32)) (a b : SecretKey) : ∃ pks s, exchange m a.1 b.1 = some (pks, s) ∧
    KdfGame.Compresses (idealKdf f U) (.compress Model.Sha2.iv256 (s ++ zeros 32) fun _ => .stop ()) s := by
  obtain ⟨pa, pb, s, h, -⟩ := C108_exchange m a.1 b.1 a.2 b.2
  exact ⟨_, s, h, _, rfl, _, List.mem_cons_self .., List.prefix_append ..⟩

end CryptoPure.Props
