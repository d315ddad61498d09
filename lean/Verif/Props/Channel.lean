import Verif.Spec.ChannelGame
import Verif.Props.KeyExchange
import Verif.Props.AeadGame
import Verif.Props.Aead

/-! # C110: a channel under a key from X25519 and HKDF

Two parties exchange public keys, derive a key from the shared secret with `extract` and `expand`, and use it with an authenticated cipher of the crate.
The compression function of SHA-2 is random. -/

namespace CryptoPure.Props
open CryptoPure.Model Spec.Sha2 Proofs Proofs.HmacSha Switch ChannelGame
open Game hiding play forges Within

/-- The code of one party: the public keys of both, and the key for the channel. `none` is a panic. -/
def session (H : Model.Sha2.HashFunction) (m : Mode) (salt info : Bytes) (L : Nat) (a b : Bytes) : Option ((Bytes × Bytes) × Bytes) :=
  (exchange m a b).bind fun e => (Hkdf.extract H m salt e.2 (zeros H.digestSize)).bind fun prk =>
    (Hkdf.expand H m prk info (zeros L)).map fun key => (e.1, key)

/-- An authenticated cipher of the crate, as a scheme whose keys are byte strings. -/
def aeadScheme (C : AeadCipher) (m : Mode) : Scheme Bytes where
  enc k msg nonce data buffer := (C.new k).bind fun s => C.encrypt m s msg nonce data buffer
  dec k ct nonce data tag buffer := (C.new k).bind fun s => C.decrypt m s ct nonce data tag buffer

/-! ## The attack on the channel as an attack on the key derivation -/

section Reduce
variable {w : Nat} {K : Type}

/-- Run the attack, with the answers of the cipher computed. -/
def toKdf (S : Scheme K) (right : Bool) (k : K) : (Outcome → Outcome) → ChannelGame.Attacker w → Log → KdfGame.Attacker w Outcome
  | post, .stop guess, _ => .stop (post ⟨guess, false, []⟩)
  | post, .compress H b next, log => .compress H b fun y => toKdf S right k (fun o => post { o with compressed := b :: o.compressed }) (next y) log
  | post, .encrypt nonce data msg msg' buffer next, log =>
    if nonce ∈ log.map Prod.fst ∨ msg.length ≠ msg'.length then toKdf S right k post (next none) log
    else match S.enc k (if right then msg' else msg) nonce data buffer with
      | none => toKdf S right k post (next none) log
      | some (ct, t) => toKdf S right k post (next (some (ct, t))) ((nonce, data, ct, t) :: log)
  | post, .decrypt nonce data ct t buffer next, log =>
    if (nonce, data, ct, t) ∈ log then toKdf S right k post (next none) log
    else toKdf S right k (fun o => post { o with forged := accepted (S.dec k ct nonce data t buffer) || o.forged }) (next (S.dec k ct nonce data t buffer)) log

theorem play_toKdf (W : KdfGame.World w) (S : Scheme K) (right : Bool) (k : K) (post : Outcome → Outcome) (A : ChannelGame.Attacker w) (log : Log) :
    KdfGame.play W (toKdf S right k post A log) = some (post (run W.compress S right k A log)) := by
  induction A generalizing post log with
  | stop g => rfl
  | compress H b next ih =>
    rw [toKdf, KdfGame.play, ih, run]
  | encrypt nonce data msg msg' buffer next ih =>
    rw [toKdf, run]
    split
    · exact ih _ _ _
    · cases hE : S.enc k (if right then msg' else msg) nonce data buffer with
      | none => exact ih _ _ _
      | some r => exact ih _ _ _
  | decrypt nonce data ct t buffer next ih =>
    rw [toKdf, run]
    split
    · exact ih _ _ _
    · rw [ih]

theorem logged_toKdf (W : KdfGame.World w) (S : Scheme K) (right : Bool) (k : K) (post : Outcome → Outcome) (A : ChannelGame.Attacker w) (log : Log)
    (seen : List Bytes) : ∃ l, KdfGame.play W ((toKdf S right k post A log).logged seen) = some l ∧
      ∀ b, b ∈ l ↔ b ∈ seen ∨ b ∈ (run W.compress S right k A log).compressed := by
  induction A generalizing post log seen with
  | stop g => exact ⟨seen, rfl, fun b => by simp [run]⟩
  | compress H b next ih =>
    obtain ⟨l, h1, h2⟩ := ih (W.compress H b) (fun o => post { o with compressed := b :: o.compressed }) log (b :: seen)
    refine ⟨l, by rw [toKdf, KdfGame.Attacker.logged, KdfGame.play]; exact h1, fun x => ?_⟩
    rw [h2, run]
    simp only [List.mem_cons]
    tauto
  | encrypt nonce data msg msg' buffer next ih =>
    rw [toKdf, run]
    split
    · exact ih _ _ _ _
    · cases hE : S.enc k (if right then msg' else msg) nonce data buffer with
      | none => exact ih _ _ _ _
      | some r => exact ih _ _ _ _
  | decrypt nonce data ct t buffer next ih =>
    rw [toKdf, run]
    split
    · exact ih _ _ _ _
    · exact ih _ _ _ _

theorem toKdf_within {B I L n : Nat} {cost blocks : Nat → Nat → Nat} (S : Scheme K) (right : Bool) (k : K) (post : Outcome → Outcome)
    (A : ChannelGame.Attacker w) (log : Log) (p a : Nat) (h : A.Within B blocks n p a) :
    (toKdf S right k post A log).Within B I L cost p 0 := by
  induction A generalizing post log p a with
  | stop g => trivial
  | compress H b next ih =>
    obtain ⟨h1, p, rfl, h⟩ := h
    rw [toKdf]
    exact ⟨h1, p, rfl, fun y => ih y _ _ _ _ (h y)⟩
  | encrypt nonce data msg msg' buffer next ih =>
    obtain ⟨-, h⟩ := h
    rw [toKdf]
    split
    · exact ih _ _ _ _ _ (h _)
    · split
      · exact ih _ _ _ _ _ (h _)
      · exact ih _ _ _ _ _ (h _)
  | decrypt nonce data ct t buffer next ih =>
    obtain ⟨-, a, rfl, h⟩ := h
    rw [toKdf]
    split
    · exact ih _ _ _ _ _ (h _)
    · exact ih _ _ _ _ _ (h _)

/-- The same attack with the values of the compression function filled in. -/
def toAdv (f : Oct w → Bytes → Oct w) : ChannelGame.Attacker w → Adversary
  | .stop g => .stop g
  | .compress H b next => toAdv f (next (f H b))
  | .encrypt nonce data msg msg' buffer next => .encrypt nonce data msg msg' buffer fun r => toAdv f (next r)
  | .decrypt nonce data ct t buffer next => .decrypt nonce data ct t buffer fun r => toAdv f (next r)

theorem accepted_iff (r : Option (Bytes × Bool)) : accepted r = true ↔ ∃ out, r = some (out, true) := by
  rcases r with _ | ⟨o, b⟩
  · simp [accepted]
  · cases b <;> simp [accepted]

theorem run_toAdv (f : Oct w → Bytes → Oct w) (S : Scheme K) (right : Bool) (k : K) (A : ChannelGame.Attacker w) (log : Log) :
    (run f S right k A log).guess = Game.play S right k (toAdv f A) log ∧
    ((run f S right k A log).forged = true ↔ Game.forges S right k (toAdv f A) log) := by
  induction A generalizing log with
  | stop g => exact ⟨rfl, by simp [run, toAdv, Game.forges]⟩
  | compress H b next ih =>
    rw [run, toAdv]
    exact ih _ _
  | encrypt nonce data msg msg' buffer next ih =>
    rw [run, toAdv, Game.play, Game.forges]
    split
    · exact ih _ _
    · cases hE : S.enc k (if right then msg' else msg) nonce data buffer with
      | none => exact ih _ _
      | some r => exact ih _ _
  | decrypt nonce data ct t buffer next ih =>
    rw [run, toAdv, Game.play, Game.forges]
    split
    · exact ih _ _
    · refine ⟨(ih _ _).1, ?_⟩
      simp only [Bool.or_eq_true, accepted_iff]
      exact or_congr Iff.rfl (ih _ _).2

theorem toAdv_within {B n : Nat} {blocks : Nat → Nat → Nat} (f : Oct w → Bytes → Oct w) (A : ChannelGame.Attacker w) (p a : Nat)
    (h : A.Within B blocks n p a) : Game.Within blocks n (toAdv f A) a := by
  induction A generalizing p a with
  | stop g => trivial
  | compress H b next ih =>
    obtain ⟨h1, p, rfl, h⟩ := h
    exact ih _ _ _ (h _)
  | encrypt nonce data msg msg' buffer next ih => exact ⟨h.1, fun r => ih r _ _ (h.2 r)⟩
  | decrypt nonce data ct t buffer next ih =>
    obtain ⟨h1, a, rfl, h⟩ := h
    exact ⟨h1, a, rfl, fun r => ih r _ _ (h r)⟩

end Reduce

/-! ## The key is uniform -/

theorem prob_take {n L : Nat} (h : L ≤ n) (P : Bytes → Prop) :
    prob (fun d : {d : Bytes // d.length = n} => P (d.1.take L)) = prob (fun k : {k : Bytes // k.length = L} => P k.1) := by
  let e : {d : Bytes // d.length = n} ≃ {k : Bytes // k.length = L} × {r : Bytes // r.length = n - L} :=
    { toFun := fun d => (⟨d.1.take L, by rw [List.length_take, d.2]; omega⟩, ⟨d.1.drop L, by rw [List.length_drop, d.2]⟩)
      invFun := fun x => ⟨x.1.1 ++ x.2.1, by rw [List.length_append, x.1.2, x.2.2]; omega⟩
      left_inv := fun d => Subtype.ext (List.take_append_drop L d.1)
      right_inv := fun x => by
        have h1 := x.1.2
        refine Prod.ext (Subtype.ext ?_) (Subtype.ext ?_)
        · simp [← h1]
        · simp [← h1] }
  have h1 := prob_equiv e (fun x => P x.1.1)
  rw [prob_fst (P := fun k : {k : Bytes // k.length = L} => P k.1)] at h1
  exact h1

theorem prob_ask {I n L : Nat} (h : L ≤ n) (info : Bytes) (hi : info.length ≤ I) (P : Bytes → Prop) :
    prob (fun U : Keyed I n => P ((U.ask info).take L)) = prob (fun k : {k : Bytes // k.length = L} => P k.1) := by
  classical
  rw [← prob_take h P]
  have h1 := prob_equiv (Equiv.funSplitAt (⟨info, hi⟩ : {x : Bytes // x.length ≤ I}) {d : Bytes // d.length = n}) (fun x => P (x.1.1.take L))
  rw [prob_fst (P := fun d : {d : Bytes // d.length = n} => P (d.1.take L))] at h1
  rw [← h1]
  congr 1
  funext U
  unfold Keyed.ask
  rw [dif_pos hi]
  rfl

theorem prob_swap {α β γ : Type} [Finite α] [Finite β] [Finite γ] [Nonempty α] (P : α → β → Prop) (Q : α → γ → Prop) (h : ∀ a, prob (P a) = prob (Q a)) :
    prob (fun q : α × β => P q.1 q.2) = prob (fun q : α × γ => Q q.1 q.2) := by
  have := prob_avg P Q 0 (fun a => by rw [h, sub_self, abs_zero])
  exact sub_eq_zero.mp (abs_nonpos_iff.mp this)

theorem prob_ask3 {α β : Type} [Finite α] [Finite β] [Nonempty α] [Nonempty β] {I n L : Nat} (h : L ≤ n) (info : Bytes) (hi : info.length ≤ I)
    (P : α → β → Bytes → Prop) :
    prob (fun q : α × (β × Keyed I n) => P q.1 q.2.1 ((q.2.2.ask info).take L)) =
      prob (fun q : α × (β × {k : Bytes // k.length = L}) => P q.1 q.2.1 q.2.2.1) :=
  prob_swap (fun a (q : β × Keyed I n) => P a q.1 ((q.2.ask info).take L)) (fun a (q : β × {k : Bytes // k.length = L}) => P a q.1 q.2.1)
    fun a => prob_swap (fun b (U : Keyed I n) => P a b ((U.ask info).take L)) (fun b (k : {k : Bytes // k.length = L}) => P a b k.1)
      fun b => prob_ask h info hi (P a b)

/-! ## The theorems -/

theorem expand_ok (v : Variant) (f : Oct v.width → Bytes → Oct v.width) (m : Mode) (prk info okm : Bytes) (hp : prk.length = v.size)
    (hi : v.block + (v.size + info.length + 1) < 2 ^ 61) (hL : okm.length ≤ 255 * v.size) (hm : m = .debug → okm.length < 254 * v.size) :
    ∃ key, Hkdf.expand (v.codeWith f) m prk info okm = some key ∧ key.length = okm.length := by
  obtain ⟨hash, Rl, L', hd, hb⟩ := codeWith_lawful v f
  have hvb : v.block ≤ 128 := by cases v <;> decide
  have hvs : v.size ≤ 64 := by cases v <;> decide
  have hlen : ∀ x, (Spec.hmac hash v.block prk x).length = v.size := fun x => by
    have := hmac_length L' prk x
    rw [hd, hb] at this
    exact this
  refine ⟨expandWith (Spec.hmac hash v.block prk) info okm.length, ?_, expandWith_length _ v.size hlen _ _ hL⟩
  rw [expand_spec prk info L' m okm (by omega) (by rw [hb, hd]; omega), hd, hb, if_pos ⟨by omega, by omega, fun e => by have := hm e; omega⟩, expandWith_eq]
  unfold Spec.hkdfExpand
  refine congrArg (fun l => some (List.take okm.length l)) (List.flatMap_congr fun i _ => ?_)
  exact (blockWith_hmac _ hash v.block v.size prk info (fun x => by rw [L'.hashLen, hd]) (fun x _ => rfl) _).symm

theorem extract_ok (v : Variant) (f : Oct v.width → Bytes → Oct v.width) (m : Mode) (salt ikm prk : Bytes) (hs : salt.length < 2 ^ 61)
    (hi : v.block + ikm.length < 2 ^ 61) (hp : prk.length = v.size) :
    ∃ d, Hkdf.extract (v.codeWith f) m salt ikm prk = some d ∧ d.length = v.size := by
  obtain ⟨hash, Rl, L', hd, hb⟩ := codeWith_lawful v f
  refine ⟨Spec.hmac hash (v.codeWith f).blockSize salt ikm, ?_, ?_⟩
  · rw [extract_spec L' m salt ikm prk hs (by rw [hb]; exact hi), if_pos (by rw [hd]; exact hp)]
  · rw [hmac_length L', hd]

theorem codeWith_size (v : Variant) (f : Oct v.width → Bytes → Oct v.width) : (v.codeWith f).digestSize = v.size := by cases v <;> rfl

/-- No call panics, and both parties get the same key. -/
theorem C110_session (v : Variant) (f : Oct v.width → Bytes → Oct v.width) (m : Mode) (salt info : Bytes) (hs : salt.length < 2 ^ 61)
    (hi : v.block + (v.size + info.length + 1) < 2 ^ 61) (L : Nat) (hL : L ≤ 255 * v.size) (hm : m = .debug → L < 254 * v.size) (a b : Bytes)
    (ha : a.length = 32) (hb : b.length = 32) :
    ∃ pa pb key, session (v.codeWith f) m salt info L a b = some ((pa, pb), key) ∧ session (v.codeWith f) m salt info L b a = some ((pb, pa), key) ∧
      key.length = L := by
  obtain ⟨pa, pb, s, h1, h2, -, -, hl⟩ := C108_exchange m a b ha hb
  have hbb : v.block ≤ 128 := by cases v <;> decide
  obtain ⟨d, he, hd⟩ := extract_ok v f m salt s (zeros (v.codeWith f).digestSize) hs (by omega) (by rw [codeWith_size]; simp)
  obtain ⟨key, hx, hkl⟩ := expand_ok v f m d info (zeros L) hd hi (by simpa using hL) (by simpa using hm)
  refine ⟨pa, pb, key, ?_, ?_, by simpa using hkl⟩
  · unfold session
    rw [h1, Option.bind_some, he, Option.bind_some, hx]
    rfl
  · unfold session
    rw [h2, Option.bind_some, he, Option.bind_some, hx]
    rfl

/-- The error that does not come from finding the shared secret. -/
def Variant.channelError (v : Variant) (p : Nat) (info : Bytes) (L : Nat) : ℚ := leakError v.size p (v.expandBlocks info.length L)

/-- The probability that the attacker, which only knows the public keys and attacks a channel with a key that has nothing to do with them, evaluates the
compression function on a block that starts with the shared secret. -/
noncomputable def findsSecret {K : Type} (v : Variant) (m : Mode) (S : Scheme K) (right : Bool) (A : Bytes × Bytes → ChannelGame.Attacker v.width) : ℚ :=
  prob (fun q : (SecretKey × SecretKey) × (Fn v.width v.block × K) => ∃ pks s, exchange m q.1.1.1 q.1.2.1 = some (pks, s) ∧
    ∃ b ∈ (run (fn q.2.1) S right q.2.2 (A pks) []).compressed, s <+: b)

/-- The probability that the attack on a channel with a uniformly random key, which has nothing to do with the public keys, ends with `P`. -/
noncomputable def underRandomKey {K : Type} (v : Variant) (m : Mode) (S : Scheme K) (right : Bool) (A : Bytes × Bytes → ChannelGame.Attacker v.width)
    (P : Outcome → Prop) : ℚ :=
  prob (fun q : (SecretKey × SecretKey) × (Fn v.width v.block × K) => ∃ pks s, exchange m q.1.1.1 q.1.2.1 = some (pks, s) ∧
    P (run (fn q.2.1) S right q.2.2 (A pks) []))

/-- The probability that the attack on a channel with a key of `L` bytes derived from the shared secret ends with `P`. -/
noncomputable def underDerivedKey (v : Variant) (m : Mode) (salt info : Bytes) (L : Nat) (S : Scheme Bytes) (right : Bool)
    (A : Bytes × Bytes → ChannelGame.Attacker v.width) (P : Outcome → Prop) : ℚ :=
  prob (fun q : (SecretKey × SecretKey) × Fn v.width v.block => ∃ pks key,
    session (v.codeWith (fn q.2)) m salt info L q.1.1.1 q.1.2.1 = some (pks, key) ∧ P (run (fn q.2) S right key (A pks) []))

/-- Keys of `L` bytes for a scheme. -/
def withKeys (S : Scheme Bytes) (L : Nat) : Scheme {k : Bytes // k.length = L} where
  enc k := S.enc k.1
  dec k := S.dec k.1

theorem run_withKeys {w L : Nat} (f : Oct w → Bytes → Oct w) (S : Scheme Bytes) (right : Bool) (k : {k : Bytes // k.length = L})
    (A : ChannelGame.Attacker w) (log : Log) : run f (withKeys S L) right k A log = run f S right k.1 A log := by
  induction A generalizing log with
  | stop g => rfl
  | compress H b next ih => rw [run, run, ih]
  | encrypt nonce data msg msg' buffer next ih =>
    rw [run, run]
    split
    · exact ih _ _
    · rw [show (withKeys S L).enc k = S.enc k.1 from rfl]
      cases hE : S.enc k.1 (if right then msg' else msg) nonce data buffer with
      | none => exact ih _ _
      | some r => exact ih _ _
  | decrypt nonce data ct t buffer next ih =>
    rw [run, run]
    split
    · exact ih _ _
    · simp only [show (withKeys S L).dec k = S.dec k.1 from rfl, ih]

/-- **A channel under an exchanged key is as good as one under a random key.** Both secret keys are uniformly random, and so is the compression function, which
the attacker evaluates at most `p` times. The attacker knows both public keys, and attacks a cipher `S` (it chooses messages, nonces and ciphertexts, each after
seeing all earlier answers) whose key is derived from the shared secret. Any event `P` about the outcome has nearly the same probability as with a uniformly random
key, unless the attacker finds the shared secret from the public keys. -/
theorem C110_channel (v : Variant) (m : Mode) (salt info : Bytes) (hs : salt.length ≤ v.block) (hi : v.block + (v.size + info.length + 1) < 2 ^ 61)
    (L : Nat) (hL : L ≤ 255 * v.size) (hm : m = .debug → L < 254 * v.size) (S : Scheme Bytes) (right : Bool)
    (A : Bytes × Bytes → ChannelGame.Attacker v.width) (blocks : Nat → Nat → Nat) (n p a : Nat) (hA : ∀ pks, (A pks).Within v.block blocks n p a)
    (P : Outcome → Prop) :
    |underDerivedKey v m salt info L S right A P - underRandomKey v m (withKeys S L) right A P| ≤
    findsSecret v m (withKeys S L) right A + v.channelError p info L := by
  unfold underDerivedKey underRandomKey
  have hbb : v.block ≤ 128 := by cases v <;> decide
  have : Nonempty SecretKey := ⟨⟨zeros 32, by decide⟩⟩
  let X : Bytes × Bytes → KdfGame.Attacker v.width Outcome := fun pks => .derive info (zeros L) fun key => toKdf S right key id (A pks) []
  have hX : ∀ pks, (X pks).Within v.block info.length L v.expandBlocks p (v.expandBlocks info.length L) := fun pks =>
    ⟨le_refl _, by simp, 0, by simp, fun key => toKdf_within S right key id (A pks) [] p a (hA pks)⟩
  have h := C108_key_exchange v m salt hs info.length L hi hL hm (zeros v.size) (by simp) X p (v.expandBlocks info.length L) hX
    (fun r => ∃ o, r = some o ∧ P o)
  have e1 : ∀ q : (SecretKey × SecretKey) × Fn v.width v.block, (∃ o, ((exchange m q.1.1.1 q.1.2.1).bind fun e =>
        (Hkdf.extract (v.codeWith (fn q.2)) m salt e.2 (zeros v.size)).bind fun d => KdfGame.play (hkdfWorld v.codeWith m (fn q.2) d) (X e.1)) = some o ∧ P o) ↔
      ∃ pks key, session (v.codeWith (fn q.2)) m salt info L q.1.1.1 q.1.2.1 = some (pks, key) ∧ P (run (fn q.2) S right key (A pks) []) := by
    intro q
    obtain ⟨pa, pb, s, h1, -, -, -, hl⟩ := C108_exchange m q.1.1.1 q.1.2.1 q.1.1.2 q.1.2.2
    obtain ⟨d, he, hd⟩ := extract_ok v (fn q.2) m salt s (zeros v.size) (by omega) (by omega) (by simp)
    obtain ⟨key, hx, hkl⟩ := expand_ok v (fn q.2) m d info (zeros L) hd hi (by simpa using hL) (by simpa using hm)
    have hs : session (v.codeWith (fn q.2)) m salt info L q.1.1.1 q.1.2.1 = some ((pa, pb), key) := by
      unfold session
      rw [codeWith_size, h1, Option.bind_some, he, Option.bind_some, hx]
      rfl
    have hp : KdfGame.play (hkdfWorld v.codeWith m (fn q.2) d) (X (pa, pb)) = some (run (fn q.2) S right key (A (pa, pb)) []) := by
      show KdfGame.play _ (.derive info (zeros L) fun key => toKdf S right key id (A (pa, pb)) []) = _
      rw [KdfGame.play, show (hkdfWorld v.codeWith m (fn q.2) d).derive info (zeros L) = some key from hx]
      exact play_toKdf _ S right key id (A (pa, pb)) []
    rw [h1, Option.bind_some, he, Option.bind_some, hp, hs]
    constructor
    · rintro ⟨o, ho, hP⟩
      exact ⟨_, _, rfl, by rw [Option.some.inj ho]; exact hP⟩
    · rintro ⟨pks, key', ho, hP⟩
      obtain ⟨rfl, rfl⟩ := Prod.mk.inj (Option.some.inj ho)
      exact ⟨_, rfl, hP⟩
  have hideal : ∀ (f : Oct v.width → Bytes → Oct v.width) (U : Keyed info.length (255 * v.size)) pks, KdfGame.play (idealKdf f U) (X pks) =
      some (run f S right ((U.ask info).take L) (A pks) []) := by
    intro f U pks
    show KdfGame.play (idealKdf f U) (toKdf S right ((U.ask info).take (zeros L).length) id (A pks) []) = _
    rw [play_toKdf, zeros_length]
    rfl
  have e2 : prob (fun q : (SecretKey × SecretKey) × (Fn v.width v.block × Keyed info.length (255 * v.size)) => ∃ o, ((exchange m q.1.1.1 q.1.2.1).bind fun e =>
        KdfGame.play (idealKdf (fn q.2.1) q.2.2) (X e.1)) = some o ∧ P o) =
      prob (fun q : (SecretKey × SecretKey) × (Fn v.width v.block × {k : Bytes // k.length = L}) => ∃ pks s,
        exchange m q.1.1.1 q.1.2.1 = some (pks, s) ∧ P (run (fn q.2.1) (withKeys S L) right q.2.2 (A pks) [])) := by
    simp only [run_withKeys]
    rw [← prob_ask3 hL info (le_refl _) (fun (k : SecretKey × SecretKey) (F : Fn v.width v.block) key => ∃ pks s,
        exchange m k.1.1 k.2.1 = some (pks, s) ∧ P (run (fn F) S right key (A pks) []))]
    congr 1
    funext q
    obtain ⟨pa, pb, s, h1, -⟩ := C108_exchange m q.1.1.1 q.1.2.1 q.1.1.2 q.1.2.2
    rw [h1, Option.bind_some, hideal]
    simp
  have e3 : prob (fun q : (SecretKey × SecretKey) × (Fn v.width v.block × Keyed info.length (255 * v.size)) => ∃ pks s,
      exchange m q.1.1.1 q.1.2.1 = some (pks, s) ∧ KdfGame.Compresses (idealKdf (fn q.2.1) q.2.2) (X pks) s) = findsSecret v m (withKeys S L) right A := by
    unfold findsSecret
    simp only [run_withKeys]
    rw [← prob_ask3 hL info (le_refl _) (fun (k : SecretKey × SecretKey) (F : Fn v.width v.block) key => ∃ pks s,
        exchange m k.1.1 k.2.1 = some (pks, s) ∧ ∃ b ∈ (run (fn F) S right key (A pks) []).compressed, s <+: b)]
    congr 1
    funext q
    refine propext (exists_congr fun pks => exists_congr fun s => and_congr Iff.rfl ?_)
    obtain ⟨l, h1, h2⟩ := logged_toKdf (idealKdf (fn q.2.1) q.2.2) S right ((q.2.2.ask info).take L) id (A pks) [] []
    have hl : KdfGame.play (idealKdf (fn q.2.1) q.2.2) ((X pks).logged []) = some l := by
      show KdfGame.play (idealKdf (fn q.2.1) q.2.2) ((toKdf S right ((q.2.2.ask info).take (zeros L).length) id (A pks) []).logged []) = _
      rw [zeros_length]
      exact h1
    unfold KdfGame.Compresses
    rw [hl]
    constructor
    · rintro ⟨l', e, b, hb, hp⟩
      rw [← Option.some.inj e, h2] at hb
      exact ⟨b, hb.resolve_left (by simp), hp⟩
    · rintro ⟨b, hb, hp⟩
      exact ⟨l, rfl, b, (h2 b).mpr (Or.inr hb), hp⟩
  simp only [e1] at h
  rw [e2, e3] at h
  exact h

/-! ## ChaCha20-Poly1305 and GCM -/

instance : Nonempty SecretKey := ⟨⟨zeros 32, by decide⟩⟩

theorem random_forged_le {K : Type} [Finite K] [Nonempty K] (v : Variant) (m : Mode) (S : Scheme K) (right : Bool)
    (A : Bytes × Bytes → ChannelGame.Attacker v.width) (c : ℚ) (h : ∀ pks f, prob (fun k => Game.forges S right k (toAdv f (A pks)) []) ≤ c) :
    underRandomKey v m S right A (fun o => o.forged = true) ≤ c := by
  have h0 : ∀ α : Type, prob (fun _ : α => False) = 0 := fun α => by unfold prob; simp
  have := prob_avg (K := SecretKey × SecretKey)
    (fun k (q : Fn v.width v.block × K) => ∃ pks s, exchange m k.1.1 k.2.1 = some (pks, s) ∧ (run (fn q.1) S right q.2 (A pks) []).forged = true)
    (fun _ (_ : Unit) => False) c (fun k => ?_)
  · rw [h0, sub_zero] at this
    exact (le_abs_self _).trans this
  · obtain ⟨pa, pb, s, h1, -⟩ := C108_exchange m k.1.1 k.2.1 k.1.2 k.2.2
    have := prob_avg (K := Fn v.width v.block)
      (fun F (x : K) => ∃ pks s, exchange m k.1.1 k.2.1 = some (pks, s) ∧ (run (fn F) S right x (A pks) []).forged = true)
      (fun _ (_ : Unit) => False) c (fun F => ?_)
    · rw [h0, sub_zero] at this ⊢
      exact this
    · rw [h0, sub_zero, abs_of_nonneg (by unfold prob; positivity)]
      refine le_trans (prob_mono fun x hx => ?_) (h (pa, pb) (fn F))
      obtain ⟨pks, s', e, hx⟩ := hx
      rw [h1] at e
      obtain ⟨rfl, -⟩ := Prod.mk.inj (Option.some.inj e)
      exact (run_toAdv _ _ _ _ _ _).2.mp hx

theorem random_guess_le {K : Type} [Finite K] [Nonempty K] (v : Variant) (m : Mode) (S : Scheme K)
    (A : Bytes × Bytes → ChannelGame.Attacker v.width) (c : ℚ)
    (h : ∀ pks f, |prob (fun k => Game.play S false k (toAdv f (A pks)) [] = true) - prob (fun k => Game.play S true k (toAdv f (A pks)) [] = true)| ≤ c) :
    |underRandomKey v m S false A (fun o => o.guess = true) - underRandomKey v m S true A (fun o => o.guess = true)| ≤ c := by
  refine prob_avg (K := SecretKey × SecretKey)
    (fun k (q : Fn v.width v.block × K) => ∃ pks s, exchange m k.1.1 k.2.1 = some (pks, s) ∧ (run (fn q.1) S false q.2 (A pks) []).guess = true)
    (fun k (q : Fn v.width v.block × K) => ∃ pks s, exchange m k.1.1 k.2.1 = some (pks, s) ∧ (run (fn q.1) S true q.2 (A pks) []).guess = true)
    c (fun k => ?_)
  obtain ⟨pa, pb, s, h1, -⟩ := C108_exchange m k.1.1 k.2.1 k.1.2 k.2.2
  refine prob_avg (K := Fn v.width v.block)
    (fun F (x : K) => ∃ pks s, exchange m k.1.1 k.2.1 = some (pks, s) ∧ (run (fn F) S false x (A pks) []).guess = true)
    (fun F (x : K) => ∃ pks s, exchange m k.1.1 k.2.1 = some (pks, s) ∧ (run (fn F) S true x (A pks) []).guess = true) c (fun F => ?_)
  refine le_trans (le_of_eq ?_) (h (pa, pb) (fn F))
  have e : ∀ right x, (∃ pks s, exchange m k.1.1 k.2.1 = some (pks, s) ∧ (run (fn F) S right x (A pks) []).guess = true) ↔
      Game.play S right x (toAdv (fn F) (A (pa, pb))) [] = true := by
    intro right x
    rw [h1, ← (run_toAdv _ _ _ _ _ _).1]
    simp
  simp only [e]

/-- **Forging on a channel with an exchanged key.** The probability that the receiver accepts something that the sender did not send is at most: the probability
that the attacker finds the shared secret, an error that is tiny unless `p` is huge, how much this attack distinguishes the ChaCha20 block function under a random
key from a random function, and the bound of C90. -/
theorem C110_chacha_forgery (v : Variant) (m : Mode) (salt info : Bytes) (hs : salt.length ≤ v.block) (hi : v.block + (v.size + info.length + 1) < 2 ^ 61)
    (right : Bool) (A : Bytes × Bytes → ChannelGame.Attacker v.width) (n p a : Nat) (hn : n ≤ 2 ^ 34 - 16)
    (hA : ∀ pks, (A pks).Within v.block authCount n p a) :
    underDerivedKey v m salt info 32 (aeadScheme ccpAead m) right A (fun o => o.forged = true) ≤
      findsSecret v m (withKeys (aeadScheme ccpAead m) 32) right A + v.channelError p info 32 +
      |underRandomKey v m (withKeys (aeadScheme ccpAead m) 32) right A (fun o => o.forged = true) -
        underRandomKey v m (ccpScheme m) right A (fun o => o.forged = true)| + a * (1480 * n) / 2 ^ 106 := by
  have hL : 32 ≤ 255 * v.size ∧ 32 < 254 * v.size := by cases v <;> decide
  have h1 := C110_channel v m salt info hs hi 32 hL.1 (fun _ => hL.2) (aeadScheme ccpAead m) right A authCount n p a hA (fun o => o.forged = true)
  have h2 := random_forged_le v m (ccpScheme m) right A (a * (1480 * n) / 2 ^ 106)
    (fun pks f => C90_ccp_adaptive_forgery m _ a n hn (toAdv_within f _ p a (hA pks)) right)
  have h3 := le_abs_self (underDerivedKey v m salt info 32 (aeadScheme ccpAead m) right A (fun o => o.forged = true) -
    underRandomKey v m (withKeys (aeadScheme ccpAead m) 32) right A (fun o => o.forged = true))
  have h4 := le_abs_self (underRandomKey v m (withKeys (aeadScheme ccpAead m) 32) right A (fun o => o.forged = true) -
        underRandomKey v m (ccpScheme m) right A (fun o => o.forged = true))
  linarith

/-- **Reading on a channel with an exchanged key.** As above for telling which of two messages were sent. -/
theorem C110_chacha_confidentiality (v : Variant) (m : Mode) (salt info : Bytes) (hs : salt.length ≤ v.block)
    (hi : v.block + (v.size + info.length + 1) < 2 ^ 61) (A : Bytes × Bytes → ChannelGame.Attacker v.width) (n p a : Nat) (hn : n ≤ 2 ^ 34 - 16)
    (hA : ∀ pks, (A pks).Within v.block authCount n p a) :
    |underDerivedKey v m salt info 32 (aeadScheme ccpAead m) false A (fun o => o.guess = true) -
        underDerivedKey v m salt info 32 (aeadScheme ccpAead m) true A (fun o => o.guess = true)| ≤
      findsSecret v m (withKeys (aeadScheme ccpAead m) 32) false A + findsSecret v m (withKeys (aeadScheme ccpAead m) 32) true A +
      2 * v.channelError p info 32 +
      |underRandomKey v m (withKeys (aeadScheme ccpAead m) 32) false A (fun o => o.guess = true) -
        underRandomKey v m (ccpScheme m) false A (fun o => o.guess = true)| +
      |underRandomKey v m (withKeys (aeadScheme ccpAead m) 32) true A (fun o => o.guess = true) -
        underRandomKey v m (ccpScheme m) true A (fun o => o.guess = true)| + 2 * (a * (1480 * n) / 2 ^ 106) := by
  have hL : 32 ≤ 255 * v.size ∧ 32 < 254 * v.size := by cases v <;> decide
  have h1 := fun right => abs_le.mp (C110_channel v m salt info hs hi 32 hL.1 (fun _ => hL.2) (aeadScheme ccpAead m) right A authCount n p a hA (fun o => o.guess = true))
  have h2 := abs_le.mp (random_guess_le v m (ccpScheme m) A (2 * (a * (1480 * n) / 2 ^ 106))
    (fun pks f => C90_ccp_adaptive_confidentiality m _ a n hn (toAdv_within f _ p a (hA pks))))
  have h3 := fun right => abs_le.mp (le_refl |underRandomKey v m (withKeys (aeadScheme ccpAead m) 32) right A (fun o => o.guess = true) -
        underRandomKey v m (ccpScheme m) right A (fun o => o.guess = true)|)
  have h1f := h1 false
  have h1t := h1 true
  have h3f := h3 false
  have h3t := h3 true
  rw [abs_le]
  constructor <;> linarith

/-- The same for GCM with a block cipher `E` that takes keys of `L` bytes. -/
theorem C110_gcm_forgery (v : Variant) (m : Mode) (salt info : Bytes) (hs : salt.length ≤ v.block) (hi : v.block + (v.size + info.length + 1) < 2 ^ 61)
    (E : Aes.BlockCipher) (L : Nat) (hL : L ≤ 32) (right : Bool) (A : Bytes × Bytes → ChannelGame.Attacker v.width) (n p a : Nat) (hn : n ≤ 2 ^ 32 - 3)
    (hA : ∀ pks, (A pks).Within v.block authCount n p a) :
    underDerivedKey v m salt info L (aeadScheme (gcmAead E) m) right A (fun o => o.forged = true) ≤
      findsSecret v m (withKeys (aeadScheme (gcmAead E) m) L) right A + v.channelError p info L +
      |underRandomKey v m (withKeys (aeadScheme (gcmAead E) m) L) right A (fun o => o.forged = true) -
        underRandomKey v m (gcmScheme oracle m) right A (fun o => o.forged = true)| + a * n / 2 ^ 128 := by
  have hL' : 32 ≤ 255 * v.size ∧ 32 < 254 * v.size := by cases v <;> decide
  have h1 := C110_channel v m salt info hs hi L (by omega) (fun _ => by omega) (aeadScheme (gcmAead E) m) right A authCount n p a hA (fun o => o.forged = true)
  have h2 := random_forged_le v m (gcmScheme oracle m) right A (a * n / 2 ^ 128)
    (fun pks f => C89_gcm_adaptive_forgery m _ a n hn (toAdv_within f _ p a (hA pks)) right)
  have h3 := le_abs_self (underDerivedKey v m salt info L (aeadScheme (gcmAead E) m) right A (fun o => o.forged = true) -
    underRandomKey v m (withKeys (aeadScheme (gcmAead E) m) L) right A (fun o => o.forged = true))
  have h4 := le_abs_self (underRandomKey v m (withKeys (aeadScheme (gcmAead E) m) L) right A (fun o => o.forged = true) -
        underRandomKey v m (gcmScheme oracle m) right A (fun o => o.forged = true))
  linarith

/-- Telling which of two messages were sent, for GCM. -/
theorem C110_gcm_confidentiality (v : Variant) (m : Mode) (salt info : Bytes) (hs : salt.length ≤ v.block)
    (hi : v.block + (v.size + info.length + 1) < 2 ^ 61) (E : Aes.BlockCipher) (L : Nat) (hL : L ≤ 32) (A : Bytes × Bytes → ChannelGame.Attacker v.width)
    (n p a : Nat) (hn : n ≤ 2 ^ 32 - 3) (hA : ∀ pks, (A pks).Within v.block authCount n p a) :
    |underDerivedKey v m salt info L (aeadScheme (gcmAead E) m) false A (fun o => o.guess = true) -
        underDerivedKey v m salt info L (aeadScheme (gcmAead E) m) true A (fun o => o.guess = true)| ≤
      findsSecret v m (withKeys (aeadScheme (gcmAead E) m) L) false A + findsSecret v m (withKeys (aeadScheme (gcmAead E) m) L) true A +
      2 * v.channelError p info L +
      |underRandomKey v m (withKeys (aeadScheme (gcmAead E) m) L) false A (fun o => o.guess = true) -
        underRandomKey v m (gcmScheme oracle m) false A (fun o => o.guess = true)| +
      |underRandomKey v m (withKeys (aeadScheme (gcmAead E) m) L) true A (fun o => o.guess = true) -
        underRandomKey v m (gcmScheme oracle m) true A (fun o => o.guess = true)| + 2 * (a * n / 2 ^ 128) := by
  have hL' : 32 ≤ 255 * v.size ∧ 32 < 254 * v.size := by cases v <;> decide
  have h1 := fun right => abs_le.mp (C110_channel v m salt info hs hi L (by omega) (fun _ => by omega) (aeadScheme (gcmAead E) m) right A authCount n p a hA (fun o => o.guess = true))
  have h2 := abs_le.mp (random_guess_le v m (gcmScheme oracle m) A (2 * (a * n / 2 ^ 128))
    (fun pks f => C89_gcm_adaptive_confidentiality m _ a n hn (toAdv_within f _ p a (hA pks))))
  have h3 := fun right => abs_le.mp (le_refl |underRandomKey v m (withKeys (aeadScheme (gcmAead E) m) L) right A (fun o => o.guess = true) -
        underRandomKey v m (gcmScheme oracle m) right A (fun o => o.guess = true)|)
  have h1f := h1 false
  have h1t := h1 true
  have h3f := h3 false
  have h3t := h3 true
  rw [abs_le]
  constructor <;> linarith

/-! ## Concrete cases -/

/-- The attacker compresses a block that starts with the first public key, encrypts a message, and presents the ciphertext with its last bit changed. -/
def flipOnChannel (pks : Bytes × Bytes) : ChannelGame.Attacker 32 :=
  .compress Model.Sha2.iv256 ((pks.1 ++ zeros 64).take 64) fun _ => .encrypt (zeros 12) [] [1, 2] [3, 4] (zeros 2) fun r => match r with
    | none => .stop false
    | some (ct, t) => .decrypt (zeros 12) [] (ct.take 2 |>.map (· ^^^ 1)) t (zeros 2) fun d => .stop (accepted d)

theorem flipOnChannel_within (pks : Bytes × Bytes) : (flipOnChannel pks).Within Variant.sha256.block authCount 4 1 1 := by
  refine ⟨by
    have : Variant.sha256.block = 64 := rfl
    rw [this]; simp, 0, rfl, fun H => ⟨by decide, fun r => ?_⟩⟩
  rcases r with _ | ⟨ct, t⟩
  · trivial
  · refine ⟨?_, 0, rfl, fun d => trivial⟩
    simp only [List.length_map, List.length_take, List.length_nil, authCount]
    omega

/-- Its chance against ChaCha20-Poly1305 with a key from X25519 and HKDF-SHA-256. -/
example (m : Mode) : underDerivedKey .sha256 m [1] [2] 32 (aeadScheme ccpAead m) false flipOnChannel (fun o => o.forged = true) ≤
      findsSecret .sha256 m (withKeys (aeadScheme ccpAead m) 32) false flipOnChannel + Variant.sha256.channelError 1 [2] 32 +
      |underRandomKey .sha256 m (withKeys (aeadScheme ccpAead m) 32) false flipOnChannel (fun o => o.forged = true) -
        underRandomKey .sha256 m (ccpScheme m) false flipOnChannel (fun o => o.forged = true)| + (1 : Nat) * (1480 * (4 : Nat)) / 2 ^ 106 :=
  C110_chacha_forgery .sha256 m [1] [2] (by decide) (by decide) false flipOnChannel 4 1 1 (by norm_num) flipOnChannel_within

/-- The error is tiny. -/
example : Variant.sha256.channelError 1 [2] 32 ≤ 1 / 2 ^ 246 := by
  have h1 : Variant.sha256.size = 32 := rfl
  have h2 : Variant.sha256.expandBlocks ([2] : Bytes).length 32 = 1 := by decide
  unfold Variant.channelError leakError
  rw [h1, h2]
  norm_num

/-- For AES-128-GCM. -/
example (m : Mode) : underDerivedKey .sha256 m [1] [2] 16 (aeadScheme (gcmAead Aes.Aes128) m) false flipOnChannel (fun o => o.forged = true) ≤
      findsSecret .sha256 m (withKeys (aeadScheme (gcmAead Aes.Aes128) m) 16) false flipOnChannel + Variant.sha256.channelError 1 [2] 16 +
      |underRandomKey .sha256 m (withKeys (aeadScheme (gcmAead Aes.Aes128) m) 16) false flipOnChannel (fun o => o.forged = true) -
        underRandomKey .sha256 m (gcmScheme oracle m) false flipOnChannel (fun o => o.forged = true)| + (1 : Nat) * (4 : Nat) / 2 ^ 128 :=
  C110_gcm_forgery .sha256 m [1] [2] (by decide) (by decide) Aes.Aes128 16 (by decide) false flipOnChannel 4 1 1 (by norm_num) flipOnChannel_within

/-! ## Further concrete cases -/

example (f : Oct 32 → Bytes → Oct 32) (m : Mode) := C110_session .sha256 f m [] [1] (by simp) (by simp [Variant.block, Variant.size])

end CryptoPure.Props
