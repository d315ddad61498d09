import Verif.Props.ShaIdeal
import Verif.Props.Committing
import Verif.Props.Commitment

/-! # C153: collisions of HMAC and HKDF for keys the attacker chooses, when the compression function is random

The code of src/hmac.rs and src/hkdf.rs over the code of src/sha2.rs, with a uniformly random function in place of the SHA-2 compression function. The attacker
(`KdfGame.Prober`) evaluates this function at most `p` times, and then names keys and messages. -/

namespace CryptoPure.Props.KeyedCollision
open CryptoPure.Model CryptoPure.Props Spec.Sha2 Proofs Proofs.HmacSha Proofs.HmacIdeal Proofs.ShaIdeal
open KdfGame (Prober)
open Game (prob prob_mono prob_or)

/-! ## Probers that compute digests -/

section
variable {w : Nat} {R S : Type}

/-- First `X`, then `k` with the result. -/
def andThen : Prober w R → (R → Prober w S) → Prober w S
  | .stop r, k => k r
  | .compress H b next, k => .compress H b fun y => andThen (next y) k

theorem andThen_run (f : Oct w → Bytes → Oct w) (X : Prober w R) (k : R → Prober w S) : (andThen X k).run f = (k (X.run f)).run f := by
  induction X with
  | stop r => rfl
  | compress H b next ih => exact ih _

theorem within_mono {B p q : Nat} (X : Prober w R) (hX : X.Within B p) (h : p ≤ q) : X.Within B q := by
  induction X generalizing p q with
  | stop r => trivial
  | compress H b next ih =>
    obtain ⟨h1, p', rfl, h2⟩ := hX
    obtain ⟨q', rfl⟩ : ∃ q', q = q' + 1 := ⟨q - 1, by omega⟩
    exact ⟨h1, q', rfl, fun y => ih y (h2 y) (by omega)⟩

theorem andThen_within {B p q : Nat} (X : Prober w R) (k : R → Prober w S) (hX : X.Within B p) (hk : ∀ r, (k r).Within B q) : (andThen X k).Within B (p + q) := by
  induction X generalizing p with
  | stop r => exact within_mono _ (hk r) (by omega)
  | compress H b next ih =>
    obtain ⟨h1, p', rfl, h2⟩ := hX
    exact ⟨h1, p' + q, by omega, fun y => ih y (h2 y)⟩

/-- Absorb blocks. -/
def absorbP {B : Nat} : Oct w → List (Blk B) → Prober w (Oct w)
  | s, [] => .stop s
  | s, b :: bs => .compress s b.1 fun y => absorbP y bs

theorem absorbP_run {B : Nat} (F : Fn w B) (s : Oct w) (bs : List (Blk B)) : (absorbP s bs).run (fn F) = chain F s bs := by
  induction bs generalizing s with
  | nil => rfl
  | cons b bs ih =>
    show Prober.run _ (absorbP (fn F s b.1) bs) = chain F (F (s, b)) bs
    rw [ih]
    unfold fn
    rw [dif_pos b.2]

theorem absorbP_within {B : Nat} (s : Oct w) (bs : List (Blk B)) : (absorbP s bs).Within B bs.length := by
  induction bs generalizing s with
  | nil => trivial
  | cons b bs ih => exact ⟨b.2, bs.length, rfl, fun y => ih y⟩

variable (A : Alg w) (hb : A.lenBytes + 1 ≤ A.blockBytes) (iv : Oct w) {n : Nat} (hn : n ≤ 8 * (w / 8))

/-- Compute a digest. -/
def hashP (M : Bytes) : Prober w Bytes := andThen (absorbP iv (pieces A hb M)) fun s => .stop (out n hn s).1

theorem hashP_run (F : Fn w A.blockBytes) (M : Bytes) : (hashP A hb iv hn M).run (fn F) = digestF A (fn F) iv n M := by
  unfold hashP
  rw [andThen_run, absorbP_run, digestF_pieces A hb F iv n hn]
  rfl

theorem hashP_within (M : Bytes) : (hashP A hb iv hn M).Within A.blockBytes (cost A M.length) := by
  unfold hashP
  rw [← pieces_length A hb M]
  exact andThen_within (q := 0) _ _ (absorbP_within _ _) fun _ => trivial

end

/-! ## HMAC over a given compression function -/

theorem codeWith_lawful' (v : Variant) (f : Oct v.width → Bytes → Oct v.width) :
    ∃ R : Bytes → (v.codeWith f).State → Prop, Lawful (v.codeWith f) (digestF v.alg f v.codeIv v.size) R ∧ (v.codeWith f).digestSize = v.size ∧ (v.codeWith f).blockSize = v.block := by
  cases v
  · exact ⟨_, Proofs.ShaWith.lawful_impl (f := f) Sha2.matches256 Model.Sha2.iv224 28 (by decide) (by decide) (by decide) (by decide) (by decide), rfl, rfl⟩
  · exact ⟨_, Proofs.ShaWith.lawful_impl (f := f) Sha2.matches256 Model.Sha2.iv256 32 (by decide) (by decide) (by decide) (by decide) (by decide), rfl, rfl⟩
  · exact ⟨_, Proofs.ShaWith.lawful_impl (f := f) Sha2.matches512 Model.Sha2.iv384 48 (by decide) (by decide) (by decide) (by decide) (by decide), rfl, rfl⟩
  · exact ⟨_, Proofs.ShaWith.lawful_impl (f := f) Sha2.matches512 Model.Sha2.iv512 64 (by decide) (by decide) (by decide) (by decide) (by decide), rfl, rfl⟩

theorem hmac_with (v : Variant) (f : Oct v.width → Bytes → Oct v.width) (m : Mode) (key M : Bytes) (hk : key.length < 2 ^ 61) (hM : v.block + M.length < 2 ^ 61) :
    Hmac.wrapper (v.codeWith f) m key M = some (Spec.hmac (digestF v.alg f v.codeIv v.size) v.block key M) := by
  obtain ⟨R, L, -, hb⟩ := codeWith_lawful' v f
  rw [hmac_wrapper_spec L m key M hk (by rw [hb]; exact hM), hb]

/-- A key of at most a block, filled up with zeros, xor a byte at each position. -/
def padWith (B : Nat) (x : U8) (key : Bytes) : Bytes := xorBytes (key ++ zeros (B - key.length)) (List.replicate B x)

theorem padWith_length {B : Nat} (x : U8) {key : Bytes} (h : key.length ≤ B) : (padWith B x key).length = B := by
  unfold padWith
  rw [xorBytes_length, List.length_append, zeros_length, List.length_replicate]
  omega

theorem padWith_inj {B : Nat} (x : U8) {key key' : Bytes} (h : key.length ≤ B) (hl : key.length = key'.length) (e : padWith B x key = padWith B x key') : key = key' := by
  have e := congrArg (xorBytes · (List.replicate B x)) e
  unfold padWith at e
  rw [xorBytes_cancel _ _ (by simp; omega), xorBytes_cancel _ _ (by simp; omega)] at e
  exact (List.append_inj e hl).1

theorem hmac_short (hash : Bytes → Bytes) (B : Nat) (key M : Bytes) (h : key.length ≤ B) :
    Spec.hmac hash B key M = hash (padWith B 0x5c key ++ hash (padWith B 0x36 key ++ M)) := by
  unfold Spec.hmac Spec.hmacKey padWith
  rw [if_neg (by omega)]

/-- A key with a message, twice. -/
abbrev Two := (Bytes × Bytes) × (Bytes × Bytes)

/-- Two different pairs of a key and a message, with keys of one length, at most a block, and messages of at most `N` bytes. -/
structure Differ (B N : Nat) (r : Two) : Prop where
  differ : r.1 ≠ r.2
  keys : r.1.1.length = r.2.1.length
  short : r.1.1.length ≤ B
  first : r.1.2.length ≤ N
  second : r.2.2.length ≤ N

instance (B N : Nat) (r : Two) : Decidable (Differ B N r) :=
  decidable_of_iff (r.1 ≠ r.2 ∧ r.1.1.length = r.2.1.length ∧ r.1.1.length ≤ B ∧ r.1.2.length ≤ N ∧ r.2.2.length ≤ N)
    ⟨fun ⟨a, b, c, d, e⟩ => ⟨a, b, c, d, e⟩, fun ⟨a, b, c, d, e⟩ => ⟨a, b, c, d, e⟩⟩

variable (v : Variant)

/-- The text of the inner hash. -/
def inner (k : Bytes × Bytes) : Bytes := padWith v.block 0x36 k.1 ++ k.2

/-- The inner texts. -/
def innerP (X : Prober v.width Two) : Prober v.width (Bytes × Bytes) := andThen X fun r => .stop (inner v r.1, inner v r.2)

/-- The outer texts. -/
def outerP (N : Nat) (X : Prober v.width Two) : Prober v.width (Bytes × Bytes) :=
  andThen X fun r => if Differ v.block N r then
    andThen (hashP v.alg (variant_params v).1 v.codeIv (variant_params v).2.2.1 (inner v r.1)) fun d =>
    andThen (hashP v.alg (variant_params v).1 v.codeIv (variant_params v).2.2.1 (inner v r.2)) fun d' =>
    .stop (padWith v.block 0x5c r.1.1 ++ d, padWith v.block 0x5c r.2.1 ++ d')
  else .stop ([], [])

theorem blocks_le {a b : Nat} (h : a ≤ b) : v.blocks a ≤ v.blocks b := by
  unfold Variant.blocks
  exact Nat.add_le_add_right (Nat.div_le_div_right (by omega)) 1

theorem blocks_inner (N : Nat) : v.blocks (v.block + N) = v.blocks N + 1 := by
  unfold Variant.blocks
  rw [Nat.add_assoc, Nat.add_div_left _ (by cases v <;> decide)]

theorem blocks_outer : v.blocks (v.block + v.size) = 2 := by cases v <;> decide

theorem innerP_within {X : Prober v.width Two} {p : Nat} (hX : X.Within v.block p) : (innerP v X).Within v.block p :=
  andThen_within (q := 0) _ _ hX fun _ => trivial

theorem outerP_within {X : Prober v.width Two} {p N : Nat} (hX : X.Within v.block p) : (outerP v N X).Within v.block (p + 2 * (v.blocks N + 1)) := by
  have hb := variant_block v
  refine andThen_within _ _ hX fun r => ?_
  split
  · rename_i h
    have hc : ∀ k : Bytes × Bytes, k.1.length ≤ v.block → k.2.length ≤ N → cost v.alg (inner v k).length ≤ v.blocks N + 1 := by
      intro k h1 h2
      rw [variant_cost, ← blocks_inner]
      refine blocks_le v ?_
      unfold inner
      rw [List.length_append, padWith_length _ h1]
      omega
    have hw : ∀ x, (hashP v.alg (variant_params v).1 v.codeIv (variant_params v).2.2.1 x).Within v.block (cost v.alg x.length) := fun x =>
      hb ▸ hashP_within v.alg (variant_params v).1 v.codeIv (variant_params v).2.2.1 x
    have h1 := hw (inner v r.1)
    have h2 := hw (inner v r.2)
    rw [Nat.two_mul]
    refine andThen_within _ _ (within_mono _ h1 (hc _ h.short h.first)) fun d => ?_
    exact andThen_within (q := 0) _ _ (within_mono _ h2 (hc _ (h.keys ▸ h.short) h.second)) fun d' => trivial
  · trivial

/-- **Nobody finds two keys and messages with the same tag, when the compression function is random.** The attacker chooses both keys, of one length and at most a block, and both
messages, of at most `N` bytes. -/
theorem C153_hmac (m m' : Mode) (N : Nat) (hN : v.block + N < 2 ^ 61) (X : Prober v.width Two) (p : Nat) (hX : X.Within v.block p) :
    prob (fun F : Fn v.width v.block => ∃ key M key' M', X.run (fn F) = ((key, M), (key', M')) ∧ (key, M) ≠ (key', M') ∧ key.length = key'.length ∧ key.length ≤ v.block ∧
      M.length ≤ N ∧ M'.length ≤ N ∧ Hmac.wrapper (v.codeWith (fn F)) m key M = Hmac.wrapper (v.codeWith (fn F)) m' key' M') ≤
    2 * ((p + 2 * v.blocks N + 6) * (p + 2 * v.blocks N + 7)) / 256 ^ v.size := by
  have hvb : v.block ≤ 128 := by cases v <;> decide
  have hvs : v.size ≤ 64 := by cases v <;> decide
  have h1 := C109_collision v m (v.block + N) hN (innerP v X) p (innerP_within v hX)
  have h2 := C109_collision v m (v.block + v.size) (by omega) (outerP v N X) _ (outerP_within v (N := N) hX)
  rw [blocks_inner] at h1
  rw [blocks_outer] at h2
  refine le_trans (prob_mono fun F hF => ?_) (le_trans (prob_or _ _) (le_trans (add_le_add h1 h2) ?_))
  · obtain ⟨key, M, key', M', hr, hne, hl, hk, hM, hM', he⟩ := hF
    have hD : Differ v.block N ((key, M), (key', M')) := ⟨hne, hl, hk, hM, hM'⟩
    obtain ⟨H, hH⟩ : ∃ H, H = digestF v.alg (fn F) v.codeIv v.size := ⟨_, rfl⟩
    rw [hmac_with v _ m key M (by omega) (by omega), hmac_with v _ m' key' M' (by omega) (by omega), Option.some.injEq, ← hH, hmac_short _ _ _ _ hk, hmac_short _ _ _ _ (hl ▸ hk)] at he
    have hHl : ∀ x, (H x).length = v.size := by
      obtain ⟨R, L, hd, -⟩ := codeWith_lawful' v (fn F)
      intro x
      rw [hH]; exact (L.hashLen x).trans hd
    have hlen : ∀ k : Bytes × Bytes, k.1.length ≤ v.block → k.2.length ≤ N → (inner v k).length ≤ v.block + N := by
      intro k h1 h2
      unfold inner
      rw [List.length_append, padWith_length _ h1]
      omega
    have hi : (innerP v X).run (fn F) = (inner v (key, M), inner v (key', M')) := by
      unfold innerP
      rw [andThen_run, hr]
      rfl
    have ho : (outerP v N X).run (fn F) = (padWith v.block 0x5c key ++ H (inner v (key, M)), padWith v.block 0x5c key' ++ H (inner v (key', M'))) := by
      have hrun : ∀ x, (hashP v.alg (variant_params v).1 v.codeIv (variant_params v).2.2.1 x).run (fn F) = H x := by
        intro x
        have : ∀ B (hB : v.alg.blockBytes = B) (F : Fn v.width B), (hashP v.alg (variant_params v).1 v.codeIv (variant_params v).2.2.1 x).run (fn F) =
            digestF v.alg (fn F) v.codeIv v.size x := by
          rintro _ rfl F
          exact hashP_run _ _ _ _ F x
        rw [this _ (variant_block v) F, hH]
      unfold outerP
      rw [andThen_run, hr, if_pos hD, andThen_run, hrun, andThen_run, hrun]
      rfl
    have hine : inner v (key, M) ≠ inner v (key', M') := by
      intro e
      obtain ⟨e1, e2⟩ := List.append_inj e (by rw [padWith_length _ hk, padWith_length _ (hl ▸ hk)])
      exact hne (Prod.ext (padWith_inj _ hk hl e1) e2)
    have hsome : ∀ x : Bytes, x.length < 2 ^ 61 → Model.Sha2.wrapper (v.codeWith (fn F)) m x = some (H x) := fun x hx => by rw [wrapper_with v _ m x hx, hH]
    by_cases hc : H (inner v (key, M)) = H (inner v (key', M'))
    · refine Or.inl ⟨_, _, hi, hine, hlen _ hk hM, hlen _ (hl ▸ hk) hM', ?_⟩
      rw [hsome _ (by have := hlen (key, M) hk hM; omega), hsome _ (by have := hlen (key', M') (hl ▸ hk) hM'; omega), hc]
    · refine Or.inr ⟨_, _, ho, fun e => hc (List.append_inj e (by rw [padWith_length _ hk, padWith_length _ (hl ▸ hk)])).2, ?_, ?_, ?_⟩
      · rw [List.length_append, padWith_length _ hk, hHl]
      · rw [List.length_append, padWith_length _ (hl ▸ hk), hHl]
      · rw [hsome, hsome]
        · exact congrArg some he
        · rw [List.length_append, padWith_length _ (hl ▸ hk), hHl]; omega
        · rw [List.length_append, padWith_length _ hk, hHl]; omega
  · rw [← add_div]
    refine div_le_div_of_nonneg_right ?_ (by positivity)
    push_cast
    nlinarith [Nat.cast_nonneg (α := ℚ) p, Nat.cast_nonneg (α := ℚ) (v.blocks N)]

/-! ## Commitments, derived keys, and encryption that commits to the key -/

/-- **A commitment of C152 is opened in one way only.** The attacker names a tag, and two keys of one length, at most a block, with messages of at most `N` bytes. -/
theorem C153_commitments (m m' : Mode) (N : Nat) (hN : v.block + N < 2 ^ 61) (X : Prober v.width (Two × Bytes)) (p : Nat) (hX : X.Within v.block p) :
    prob (fun F : Fn v.width v.block => ∃ key M key' M' c, X.run (fn F) = (((key, M), (key', M')), c) ∧ (key, M) ≠ (key', M') ∧ key.length = key'.length ∧ key.length ≤ v.block ∧
      M.length ≤ N ∧ M'.length ≤ N ∧ Hmac.verify (v.codeWith (fn F)) m key M c = some true ∧ Hmac.verify (v.codeWith (fn F)) m' key' M' c = some true) ≤
    2 * ((p + 2 * v.blocks N + 6) * (p + 2 * v.blocks N + 7)) / 256 ^ v.size := by
  have hvb : v.block ≤ 128 := by cases v <;> decide
  refine le_trans (prob_mono fun F hF => ?_) (C153_hmac v m m' N hN (andThen X fun r => .stop r.1) p (andThen_within (q := 0) _ _ hX fun _ => trivial))
  obtain ⟨key, M, key', M', c, hr, hne, hl, hk, hM, hM', h, h'⟩ := hF
  refine ⟨key, M, key', M', ?_, hne, hl, hk, hM, hM', ?_⟩
  · rw [andThen_run, hr]; rfl
  · obtain ⟨R, L, -, hb⟩ := codeWith_lawful' v (fn F)
    rw [hmac_verify_spec L m key M c (by omega) (by rw [hb]; omega), Option.some.injEq, decide_eq_true_eq] at h
    rw [hmac_verify_spec L m' key' M' c (by omega) (by rw [hb]; omega), Option.some.injEq, decide_eq_true_eq] at h'
    rw [hmac_wrapper_spec L m key M (by omega) (by rw [hb]; omega), hmac_wrapper_spec L m' key' M' (by omega) (by rw [hb]; omega), h, h']

/-- **`hkdf::extract` gives different keys for different secrets**, also under salts the attacker chooses. -/
theorem C153_extract (m m' : Mode) (N : Nat) (hN : v.block + N < 2 ^ 61) (X : Prober v.width Two) (p : Nat) (hX : X.Within v.block p) :
    prob (fun F : Fn v.width v.block => ∃ salt ikm salt' ikm', X.run (fn F) = ((salt, ikm), (salt', ikm')) ∧ (salt, ikm) ≠ (salt', ikm') ∧ salt.length = salt'.length ∧
      salt.length ≤ v.block ∧ ikm.length ≤ N ∧ ikm'.length ≤ N ∧
      Hkdf.extract (v.codeWith (fn F)) m salt ikm (zeros v.size) = Hkdf.extract (v.codeWith (fn F)) m' salt' ikm' (zeros v.size)) ≤
    2 * ((p + 2 * v.blocks N + 6) * (p + 2 * v.blocks N + 7)) / 256 ^ v.size := by
  have hvb : v.block ≤ 128 := by cases v <;> decide
  refine le_trans (prob_mono fun F hF => ?_) (C153_hmac v m m' N hN X p hX)
  obtain ⟨key, M, key', M', hr, hne, hl, hk, hM, hM', h⟩ := hF
  refine ⟨key, M, key', M', hr, hne, hl, hk, hM, hM', ?_⟩
  obtain ⟨R, L, hd, hb⟩ := codeWith_lawful' v (fn F)
  rw [extract_spec L m key M _ (by omega) (by rw [hb]; omega), extract_spec L m' key' M' _ (by omega) (by rw [hb]; omega), if_pos (by rw [zeros_length, hd]),
    if_pos (by rw [zeros_length, hd])] at h
  rw [hmac_wrapper_spec L m key M (by omega) (by rw [hb]; omega), hmac_wrapper_spec L m' key' M' (by omega) (by rw [hb]; omega), h]

theorem first_digest_with (f : Oct v.width → Bytes → Oct v.width) (m : Mode) (key info out : Bytes) (hk : key.length < 2 ^ 61) (hi : info.length < 2 ^ 60)
    (h : Hkdf.expand (v.codeWith f) m key info (zeros v.size) = some out) : Hmac.wrapper (v.codeWith f) m key (info ++ [1]) = some out := by
  have hvb : v.block ≤ 128 := by cases v <;> decide
  have hvs : v.size ≤ 64 := by cases v <;> decide
  obtain ⟨R, L, hd, hb⟩ := codeWith_lawful' v f
  rw [hmac_wrapper_spec L m key _ hk (by rw [hb, List.length_append, List.length_singleton]; omega)]
  rw [expand_spec key info L m _ hk (by rw [hb, hd]; omega)] at h
  split at h
  · rw [← Option.some.inj h, zeros_length]
    congr 1
    have hT : ∀ i, 0 < i → (Spec.hkdfT (digestF v.alg f v.codeIv v.size) (v.codeWith f).blockSize key info i).length = v.size := fun i h0 =>
      (Proofs.hkdfT_length key info L i h0).trans hd
    unfold Spec.hkdfExpand
    rw [show List.range 255 = List.range (254 + 1) from rfl, List.range_succ_eq_map, List.flatMap_cons, List.take_append_of_le_length (hT _ (Nat.succ_pos _)).ge]
    exact (List.take_of_length_le (hT 1 Nat.one_pos).le).symm
  · cases h

/-- **`hkdf::expand` gives different outputs for different keys or contexts**, when whole digests are derived, also for keys the attacker chooses. -/
theorem C153_expand (m m' : Mode) (I : Nat) (hI : I < 2 ^ 60) (X : Prober v.width Two) (p : Nat) (hX : X.Within v.block p) :
    prob (fun F : Fn v.width v.block => ∃ key info key' info' out, X.run (fn F) = ((key, info), (key', info')) ∧ (key, info) ≠ (key', info') ∧ key.length = key'.length ∧
      key.length ≤ v.block ∧ info.length ≤ I ∧ info'.length ≤ I ∧
      Hkdf.expand (v.codeWith (fn F)) m key info (zeros v.size) = some out ∧ Hkdf.expand (v.codeWith (fn F)) m' key' info' (zeros v.size) = some out) ≤
    2 * ((p + 2 * v.blocks (I + 1) + 6) * (p + 2 * v.blocks (I + 1) + 7)) / 256 ^ v.size := by
  have hvb : v.block ≤ 128 := by cases v <;> decide
  refine le_trans (prob_mono fun F hF => ?_) (C153_hmac v m m' (I + 1) (by omega) (andThen X fun r => .stop ((r.1.1, r.1.2 ++ [1]), (r.2.1, r.2.2 ++ [1]))) p
    (andThen_within (q := 0) _ _ hX fun _ => trivial))
  obtain ⟨key, info, key', info', out, hr, hne, hl, hk, hi, hi', h, h'⟩ := hF
  refine ⟨key, info ++ [1], key', info' ++ [1], ?_, ?_, hl, hk, by simpa using hi, by simpa using hi', ?_⟩
  · rw [andThen_run, hr]; rfl
  · intro e
    obtain ⟨e1, e2⟩ := Prod.mk.injEq .. ▸ e
    exact hne (Prod.ext e1 (List.append_cancel_right e2))
  · rw [first_digest_with v _ m key info out (by omega) (by omega) h, first_digest_with v _ m' key' info' out (by omega) (by omega) h']

/-- The receiver of C143 over the hash function `H` with digests of `size` bytes. -/
def openWith (H : Model.Sha2.HashFunction) (size : Nat) (A : AeadCipher) (keyLen : Nat) (m : Mode) (info : Fin 2 → Bytes) (key nonce data com ct t : Bytes) : Option (Option Bytes) := do
  let com' ← Hkdf.expand H m key (info 0) (zeros size)
  if com' = com then do
    let k ← Hkdf.expand H m key (info 1) (zeros keyLen)
    let st ← A.new k
    let (out, ok) ← A.decrypt m st ct nonce data t (zeros ct.length)
    some (if ok then some out else none)
  else some none

/-- With the crate's own compression function it is the receiver of C143. -/
theorem C153_code (A : AeadCipher) (keyLen : Nat) : openWith (v.codeWith v.compression) v.size A keyLen = openCommitted A keyLen v := by
  rw [C104_code]; rfl

/-- What the attacker on C143 names for each of the two receivers: key, nonce, data, ciphertext and tag. -/
structure Sent where
  key : Bytes
  nonce : Bytes
  data : Bytes
  ct : Bytes
  tag : Bytes

/-- **A ciphertext of C143 belongs to one key.** The attacker names one commitment and, for each of two receivers with whatever AEADs, a key, nonce, data, ciphertext and tag. The probability
that the keys are different, of one length, at most a block, and both receivers accept is small. -/
theorem C153_one_key (A A' : AeadCipher) (l l' : Nat) (m m' : Mode) (info : Fin 2 → Bytes) (hi : (info 0).length < 2 ^ 60) (X : Prober v.width (Bytes × Sent × Sent)) (p : Nat)
    (hX : X.Within v.block p) :
    prob (fun F : Fn v.width v.block => ∃ com s s' msg msg', X.run (fn F) = (com, s, s') ∧ s.key ≠ s'.key ∧ s.key.length = s'.key.length ∧ s.key.length ≤ v.block ∧
      openWith (v.codeWith (fn F)) v.size A l m info s.key s.nonce s.data com s.ct s.tag = some (some msg) ∧
      openWith (v.codeWith (fn F)) v.size A' l' m' info s'.key s'.nonce s'.data com s'.ct s'.tag = some (some msg')) ≤
    2 * ((p + 2 * v.blocks ((info 0).length + 1) + 6) * (p + 2 * v.blocks ((info 0).length + 1) + 7)) / 256 ^ v.size := by
  refine le_trans (prob_mono fun F hF => ?_) (C153_expand v m m' (info 0).length hi (andThen X fun r => .stop ((r.2.1.key, info 0), (r.2.2.key, info 0))) p
    (andThen_within (q := 0) _ _ hX fun _ => trivial))
  obtain ⟨com, s, s', msg, msg', hr, hne, hl, hk, h, h'⟩ := hF
  have key : ∀ (A : AeadCipher) (l : Nat) (m : Mode) (s : Sent) (msg : Bytes),
      openWith (v.codeWith (fn F)) v.size A l m info s.key s.nonce s.data com s.ct s.tag = some (some msg) →
      Hkdf.expand (v.codeWith (fn F)) m s.key (info 0) (zeros v.size) = some com := by
    intro A l m s msg h
    unfold openWith at h
    simp only [Option.bind_eq_bind, Option.bind_eq_some_iff] at h
    obtain ⟨com', h1, h2⟩ := h
    by_cases hc : com' = com
    · rw [h1, hc]
    · rw [if_neg hc] at h2
      cases h2
  refine ⟨s.key, info 0, s'.key, info 0, com, ?_, fun e => hne (congrArg Prod.fst e), hl, hk, le_refl _, le_refl _, key _ _ _ _ _ h, key _ _ _ _ _ h'⟩
  rw [andThen_run, hr]; rfl

/-! ## Concrete cases -/

/-- The attacker evaluates the compression function twice, and makes keys of the values. -/
def probeTwice : Prober 32 Two :=
  .compress Model.Sha2.iv256 (zeros 64) fun y => .compress y (zeros 64) fun z => .stop ((bytesOf y, [1, 2, 3]), (bytesOf z, [1, 2, 3]))

theorem probeTwice_within : probeTwice.Within Variant.sha256.block 2 := ⟨rfl, 1, rfl, fun _ => ⟨rfl, 0, rfl, fun _ => trivial⟩⟩

example (m : Mode) : prob (fun F : Fn 32 64 => ∃ key M key' M', probeTwice.run (fn F) = ((key, M), (key', M')) ∧ (key, M) ≠ (key', M') ∧ key.length = key'.length ∧ key.length ≤ 64 ∧
      M.length ≤ 3 ∧ M'.length ≤ 3 ∧ Hmac.wrapper (Variant.sha256.codeWith (fn F)) m key M = Hmac.wrapper (Variant.sha256.codeWith (fn F)) m key' M') ≤ 1 / 2 ^ 248 := by
  refine (C153_hmac .sha256 m m 3 (by decide) probeTwice 2 probeTwice_within).trans ?_
  have h1 : Variant.sha256.size = 32 := rfl
  have h2 : Variant.sha256.blocks 3 = 1 := by decide
  rw [h1, h2]
  norm_num

example (m : Mode) := C153_commitments .sha256 m m 3 (by decide) (andThen probeTwice fun r => .stop (r, zeros 32)) 2 (andThen_within (q := 0) _ _ probeTwice_within fun _ => trivial)
example (m : Mode) := C153_extract .sha256 m m 3 (by decide) probeTwice 2 probeTwice_within
example (m : Mode) := C153_expand .sha256 m m 3 (by decide) probeTwice 2 probeTwice_within
example (m : Mode) := C153_one_key .sha256 ccpAead ccpAead 32 32 m m ![[1], [2]] (by decide)
  (andThen probeTwice fun r => .stop (zeros 32, ⟨r.1.1, zeros 12, [], [5], zeros 16⟩, ⟨r.2.1, zeros 12, [], [5], zeros 16⟩)) 2 (andThen_within (q := 0) _ _ probeTwice_within fun _ => trivial)

end CryptoPure.Props.KeyedCollision
