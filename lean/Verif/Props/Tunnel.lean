import Verif.Spec.TunnelGame
import Verif.Props.Records
import Verif.Props.Channel
import Verif.Proofs.Resample

/-! # C133: records over links whose keys come from X25519 and HKDF

Two parties exchange public keys, derive one key for each of `u` links from the shared secret with `extract` and `expand`, and carry
numbered records over the links with an authenticated cipher of the crate. The compression function of SHA-2 is random. -/

namespace CryptoPure.Props
open CryptoPure.Model Spec.Sha2 Proofs Proofs.HmacSha Switch TunnelGame
open RecordGame (State start)
open Distinguisher (Distinguisher coinAdvantage)
open Game (Scheme prob prob_mono prob_prod_le prob_fst prob_prod prob_equiv)

variable {u w len : Nat} {K : Type}

/-- What one party computes: both public keys, and the keys of the links, one context for each link. -/
def Handshake (v : Variant) (f : Oct v.width → Bytes → Oct v.width) (m : Mode) (salt : Bytes) (info : Fin u → Bytes) (own other : Bytes)
    (pks : Bytes × Bytes) (keys : Fin u → {k : Bytes // k.length = len}) : Prop :=
  ∃ secret prk, exchange m own other = some (pks, secret) ∧ Hkdf.extract (v.codeWith f) m salt secret (zeros v.size) = some prk ∧
    ∀ i, Hkdf.expand (v.codeWith f) m prk (info i) (zeros len) = some (keys i).1

/-! ## The attack as an attack on the key derivation -/

/-- Run the attack, with the answers of sender and receiver computed. -/
def tunnelKdf (S : Scheme K) (right : Bool) (k : Fin u → K) : (Outcome → Outcome) → TunnelGame.Attacker w u → State u → KdfGame.Attacker w Outcome
  | post, .stop guess, st => .stop (post ⟨guess, ¬ st.Faithful, []⟩)
  | post, .compress H b next, st =>
    .compress H b fun y => tunnelKdf S right k (fun o => post { o with compressed := b :: o.compressed }) (next y) st
  | post, .send link data msg msg' next, st =>
    if msg.length ≠ msg'.length then tunnelKdf S right k post (next none) st
    else
      let r := RecordGame.sendStep S k st link data (if right then msg' else msg)
      tunnelKdf S right k (fun o => post { o with broken := ¬ st.Faithful ∨ o.broken }) (next r.1) r.2
  | post, .deliver link data ct tag next, st =>
    let r := RecordGame.deliverStep S k st link data ct tag
    tunnelKdf S right k (fun o => post { o with broken := ¬ st.Faithful ∨ o.broken }) (next r.1) r.2

theorem play_tunnelKdf (W : KdfGame.World w) (S : Scheme K) (right : Bool) (k : Fin u → K) (post : Outcome → Outcome)
    (A : TunnelGame.Attacker w u) (st : State u) :
    KdfGame.play W (tunnelKdf S right k post A st) = some (post (run W.compress S right k A st)) := by
  induction A generalizing post st with
  | stop g => rfl
  | compress H b next ih => rw [tunnelKdf, KdfGame.play, ih, run]
  | send link data msg msg' next ih =>
    rw [tunnelKdf, run]
    split
    · exact ih _ _ _
    · exact ih _ _ _
  | deliver link data ct t next ih => rw [tunnelKdf, run]; exact ih _ _ _

theorem logged_tunnelKdf (W : KdfGame.World w) (S : Scheme K) (right : Bool) (k : Fin u → K) (post : Outcome → Outcome)
    (A : TunnelGame.Attacker w u) (st : State u) (seen : List Bytes) :
    ∃ l, KdfGame.play W ((tunnelKdf S right k post A st).logged seen) = some l ∧
      ∀ b, b ∈ l ↔ b ∈ seen ∨ b ∈ (run W.compress S right k A st).compressed := by
  induction A generalizing post st seen with
  | stop g => exact ⟨seen, rfl, fun b => by simp [run]⟩
  | compress H b next ih =>
    obtain ⟨l, h1, h2⟩ := ih (W.compress H b) (fun o => post { o with compressed := b :: o.compressed }) st (b :: seen)
    refine ⟨l, by rw [tunnelKdf, KdfGame.Attacker.logged, KdfGame.play]; exact h1, fun x => ?_⟩
    rw [h2, run]
    simp only [List.mem_cons]
    tauto
  | send link data msg msg' next ih =>
    rw [tunnelKdf, run]
    split
    · exact ih _ _ _ _
    · exact ih _ _ _ _
  | deliver link data ct t next ih => rw [tunnelKdf, run]; exact ih _ _ _ _

theorem tunnelKdf_within {B I L n : Nat} {cost blocks : Nat → Nat → Nat} (S : Scheme K) (right : Bool) (k : Fin u → K)
    (post : Outcome → Outcome) (A : TunnelGame.Attacker w u) (st : State u) (p a : Nat) (h : A.Within B blocks n p a) :
    (tunnelKdf S right k post A st).Within B I L cost p 0 := by
  induction A generalizing post st p a with
  | stop g => trivial
  | compress H b next ih =>
    obtain ⟨h1, p, rfl, h⟩ := h
    rw [tunnelKdf]
    exact ⟨h1, p, rfl, fun y => ih y _ _ _ _ (h y)⟩
  | send link data msg msg' next ih =>
    obtain ⟨-, h⟩ := h
    rw [tunnelKdf]
    split
    · exact ih _ _ _ _ _ (h _)
    · exact ih _ _ _ _ _ (h _)
  | deliver link data ct t next ih =>
    obtain ⟨-, a, rfl, h⟩ := h
    rw [tunnelKdf]
    exact ih _ _ _ _ _ (h _)

theorem run_knowing (f : Oct w → Bytes → Oct w) (S : Scheme K) (right : Bool) (k : Fin u → K) (A : TunnelGame.Attacker w u) (st : State u) :
    (run f S right k A st).guess = RecordGame.play S right k (A.knowing f) st ∧
    ((run f S right k A st).broken → RecordGame.breaks S right k (A.knowing f) st) := by
  induction A generalizing st with
  | stop g => exact ⟨rfl, fun h => h⟩
  | compress H b next ih => rw [run, Attacker.knowing]; exact ih _ _
  | send link data msg msg' next ih =>
    rw [run, Attacker.knowing, RecordGame.play, RecordGame.breaks]
    split
    · exact ⟨(ih _ _).1, fun h => .inr ((ih _ _).2 h)⟩
    · exact ⟨(ih _ _).1, fun h => h.imp id (ih _ _).2⟩
  | deliver link data ct t next ih =>
    rw [run, Attacker.knowing, RecordGame.play, RecordGame.breaks]
    exact ⟨(ih _ _).1, fun h => h.imp id (ih _ _).2⟩

theorem knowing_within {B n : Nat} {blocks : Nat → Nat → Nat} (f : Oct w → Bytes → Oct w) (A : TunnelGame.Attacker w u) (p a : Nat)
    (h : A.Within B blocks n p a) : RecordGame.Within blocks n (A.knowing f) a := by
  induction A generalizing p a with
  | stop g => trivial
  | compress H b next ih =>
    obtain ⟨h1, p, rfl, h⟩ := h
    exact ih _ _ _ (h _)
  | send link data msg msg' next ih => exact ⟨h.1, fun r => ih r _ _ (h.2 r)⟩
  | deliver link data ct t next ih =>
    obtain ⟨h1, a, rfl, h⟩ := h
    exact ⟨h1, a, rfl, fun r => ih r _ _ (h r)⟩

theorem knowing_costs {cost : Nat → Nat} (f : Oct w → Bytes → Oct w) (A : TunnelGame.Attacker w u) (s : Nat)
    (h : A.Costs cost s) : RecordGame.Costs cost (A.knowing f) s := by
  induction A generalizing s with
  | stop g => trivial
  | compress H b next ih => exact ih _ _ (h _)
  | send link data msg msg' next ih =>
    obtain ⟨s', rfl, h⟩ := h
    exact ⟨s', rfl, fun r => ih r _ (h r)⟩
  | deliver link data ct t next ih =>
    obtain ⟨s', rfl, h⟩ := h
    exact ⟨s', rfl, fun r => ih r _ (h r)⟩

theorem knowing_costsEach {cost : Nat → Nat} {B : Nat} (f : Oct w → Bytes → Oct w) (A : TunnelGame.Attacker w u) (used : Fin u → Nat)
    (h : A.CostsEach cost B used) : RecordGame.CostsEach cost B (A.knowing f) used := by
  induction A generalizing used with
  | stop g => trivial
  | compress H b next ih => exact ih _ _ (h _)
  | send link data msg msg' next ih => exact ⟨h.1, fun r => ih r _ (h.2 r)⟩
  | deliver link data ct t next ih => exact ⟨h.1, fun r => ih r _ (h.2 r)⟩

/-! ## Asking for the keys -/

/-- Bytes as a key. -/
def fit (len : Nat) (b : Bytes) : {k : Bytes // k.length = len} := ⟨(b ++ zeros len).take len, by simp⟩

theorem fit_eq (k : {k : Bytes // k.length = len}) : fit len k.1 = k := by
  apply Subtype.ext
  have := k.2
  show (k.1 ++ zeros len).take len = k.1
  rw [List.take_append_of_le_length (by omega), List.take_of_length_le (by omega)]

/-- Ask for the keys of the links and go on with them. -/
def askLinks {R : Type} (len : Nat) (info : Fin u → Bytes) (next : (Fin u → {k : Bytes // k.length = len}) → KdfGame.Attacker w R) :
    KdfGame.Attacker w R :=
  askKeys len (List.ofFn info) fun l => next fun i => fit len (l.getD i.1 [])

theorem play_askLinks {R : Type} (W : KdfGame.World w) (info : Fin u → Bytes) (keys : Fin u → {k : Bytes // k.length = len})
    (h : ∀ i, W.derive (info i) (zeros len) = some (keys i).1) (next : (Fin u → {k : Bytes // k.length = len}) → KdfGame.Attacker w R) :
    KdfGame.play W (askLinks len info next) = KdfGame.play W (next keys) := by
  have e : ∀ i ∈ List.ofFn info, W.derive i (zeros len) = some ((W.derive i (zeros len)).getD []) := by
    intro x hx
    obtain ⟨i, rfl⟩ := (List.mem_ofFn' _ _).mp hx
    rw [h i]; rfl
  unfold askLinks
  rw [play_askKeys W len _ _ e]
  congr 2
  funext i
  have e2 : ((List.ofFn info).map fun x => (W.derive x (zeros len)).getD []).getD i.1 [] = (keys i).1 := by
    simp [List.getD, h i]
  rw [e2, fit_eq]

theorem logged_askKeys {R : Type} (infos : List Bytes) (next : List Bytes → KdfGame.Attacker w R) (seen : List Bytes) :
    (askKeys len infos next).logged seen = askKeys len infos fun l => (next l).logged seen := by
  induction infos generalizing next with
  | nil => rfl
  | cons i rest ih =>
    rw [askKeys, KdfGame.Attacker.logged, askKeys]
    congr 1
    funext t
    exact ih _

theorem askKeys_within_sum {B I L p : Nat} {R : Type} (cost : Nat → Nat → Nat) (hl : len ≤ L) (infos : List Bytes)
    (h : ∀ i ∈ infos, i.length ≤ I) (next : List Bytes → KdfGame.Attacker w R) (hn : ∀ l, (next l).Within B I L cost p 0) :
    (askKeys len infos next).Within B I L cost p (infos.map fun i => cost i.length len).sum := by
  induction infos generalizing next with
  | nil => simpa [askKeys] using hn []
  | cons i rest ih =>
    refine ⟨h i (by simp), by simpa using hl, (rest.map fun i => cost i.length len).sum, ?_,
      fun t => ih (fun j hj => h j (by simp [hj])) _ fun l => hn _⟩
    rw [List.map_cons, List.sum_cons, zeros_length]
    omega

theorem askLinks_within {B I L p : Nat} {R : Type} (cost : Nat → Nat → Nat) (hl : len ≤ L) (info : Fin u → Bytes) (hi : ∀ i, (info i).length ≤ I)
    (next : (Fin u → {k : Bytes // k.length = len}) → KdfGame.Attacker w R) (hn : ∀ k, (next k).Within B I L cost p 0) :
    (askLinks len info next).Within B I L cost p (List.ofFn fun i => cost (info i).length len).sum := by
  have := askKeys_within_sum (B := B) (I := I) (L := L) (p := p) cost hl (List.ofFn info)
    (fun x hx => by obtain ⟨i, rfl⟩ := (List.mem_ofFn' _ _).mp hx; exact hi i) (fun l => next fun i => fit len (l.getD i.1 [])) (fun l => hn _)
  rwa [List.map_ofFn] at this

/-! ## The keys are as good as random keys -/

/-- No call panics, and both parties get the same keys. -/
theorem C133_handshake (v : Variant) (f : Oct v.width → Bytes → Oct v.width) (m : Mode) (salt : Bytes) (info : Fin u → Bytes)
    (hs : salt.length < 2 ^ 61) (hi : ∀ i, v.block + (v.size + (info i).length + 1) < 2 ^ 61) (hL : len ≤ 255 * v.size)
    (hm : m = .debug → len < 254 * v.size) (a b : Bytes) (ha : a.length = 32) (hb : b.length = 32) :
    ∃ pa pb, ∃ keys : Fin u → {k : Bytes // k.length = len}, Handshake v f m salt info a b (pa, pb) keys ∧
      Handshake v f m salt info b a (pb, pa) keys ∧
      ∀ pks keys', Handshake v f m salt info a b pks keys' → pks = (pa, pb) ∧ keys' = keys := by
  obtain ⟨pa, pb, s, h1, h2, -, -, hl⟩ := C108_exchange m a b ha hb
  have hbb : v.block ≤ 128 := by cases v <;> decide
  obtain ⟨d, he, hd⟩ := extract_ok v f m salt s (zeros v.size) hs (by omega) (by simp)
  have hx : ∀ i, ∃ key : {k : Bytes // k.length = len}, Hkdf.expand (v.codeWith f) m d (info i) (zeros len) = some key.1 := fun i => by
    obtain ⟨key, hx, hkl⟩ := expand_ok v f m d (info i) (zeros len) hd (hi i) (by simpa using hL) (by simpa using hm)
    exact ⟨⟨key, by simpa using hkl⟩, hx⟩
  choose keys hk using hx
  refine ⟨pa, pb, keys, ⟨s, d, h1, he, hk⟩, ⟨s, d, h2, he, hk⟩, ?_⟩
  rintro pks keys' ⟨s', d', g1, g2, g3⟩
  rw [h1] at g1
  obtain ⟨rfl, rfl⟩ := Prod.mk.inj (Option.some.inj g1)
  rw [he] at g2
  obtain rfl := Option.some.inj g2
  exact ⟨rfl, funext fun i => Subtype.ext (Option.some.inj ((g3 i).symm.trans (hk i)))⟩

/-- The error that does not come from finding the shared secret: `p` evaluations by the attacker, and those that the derivation of the
keys makes. -/
def Variant.tunnelError (v : Variant) (p : Nat) (info : Fin u → Bytes) (len : Nat) : ℚ :=
  leakError v.size p (List.ofFn fun i => v.expandBlocks (info i).length len).sum

/-- It is at most `5 (p + 4 c + 3)^2 / 2^bits`, where `c` is the number of blocks that the derivation of the keys compresses. -/
theorem C133_error (v : Variant) (p : Nat) (info : Fin u → Bytes) (len c : Nat)
    (hc : c = (List.ofFn fun i => v.expandBlocks (info i).length len).sum) :
    v.tunnelError p info len ≤ 5 * (p + 4 * c + 3) ^ 2 / 256 ^ v.size := by
  unfold Variant.tunnelError leakError
  rw [← hc]
  have hx : (0 : ℚ) ≤ p := Nat.cast_nonneg p
  have hy : (0 : ℚ) ≤ c := Nat.cast_nonneg c
  have hd : (0 : ℚ) < 256 ^ v.size := by positivity
  have e : (2 : ℚ) / 256 ^ v.size + ((p + 4 * c + 2) * (p + 4 * c + 3) + (2 * p + 8 * c + 6)) / 256 ^ v.size +
      2 * (2 * p / 256 ^ v.size + (c + 2) * (c + p + 3) / 256 ^ v.size) =
      (2 + ((p + 4 * c + 2) * (p + 4 * c + 3) + (2 * p + 8 * c + 6)) + 2 * (2 * p + (c + 2) * (c + p + 3))) / 256 ^ v.size := by ring
  rw [e]
  refine div_le_div_of_nonneg_right ?_ hd.le
  nlinarith [mul_nonneg hx hy, mul_nonneg hx hx, mul_nonneg hy hy]

/-- The probability that the attacker, which only knows the public keys and attacks links with keys that have nothing to do with
them, evaluates the compression function on a block that starts with the shared secret. -/
noncomputable def findsExchanged (v : Variant) (m : Mode) (S : Scheme K) (right : Bool) (A : Bytes × Bytes → TunnelGame.Attacker v.width u) : ℚ :=
  prob (fun q : (SecretKey × SecretKey) × (Fn v.width v.block × (Fin u → K)) => ∃ pks s, exchange m q.1.1.1 q.1.2.1 = some (pks, s) ∧
    ∃ b ∈ (run (fn q.2.1) S right q.2.2 (A pks) start).compressed, s <+: b)

/-- The probability that the attack on links with uniformly random keys, which have nothing to do with the public keys, ends with `P`. -/
noncomputable def overRandomKeys (v : Variant) (m : Mode) (S : Scheme K) (right : Bool) (A : Bytes × Bytes → TunnelGame.Attacker v.width u)
    (P : Outcome → Prop) : ℚ :=
  prob (fun q : (SecretKey × SecretKey) × (Fn v.width v.block × (Fin u → K)) => ∃ pks s, exchange m q.1.1.1 q.1.2.1 = some (pks, s) ∧
    P (run (fn q.2.1) S right q.2.2 (A pks) start))

/-- The probability that the attack on the links, with the keys that the parties derive, ends with `P`. -/
noncomputable def overTunnel (v : Variant) (m : Mode) (salt : Bytes) (info : Fin u → Bytes) (S : Scheme {k : Bytes // k.length = len})
    (right : Bool) (A : Bytes × Bytes → TunnelGame.Attacker v.width u) (P : Outcome → Prop) : ℚ :=
  prob (fun q : (SecretKey × SecretKey) × Fn v.width v.block => ∃ pks keys,
    Handshake v (fn q.2) m salt info q.1.1.1 q.1.2.1 pks keys ∧ P (run (fn q.2) S right keys (A pks) start))

theorem prob_ideal3 {α β : Type} [Finite α] [Finite β] [Nonempty α] [Nonempty β] {I n : Nat} (h : len ≤ n) (info : Fin u → Bytes)
    (hinj : Function.Injective info) (hi : ∀ i, (info i).length ≤ I) (P : α → β → (Fin u → {k : Bytes // k.length = len}) → Prop) :
    prob (fun q : α × (β × Keyed I n) => P q.1 q.2.1 (fun i => ⟨(q.2.2.ask (info i)).take len, by rw [List.length_take, ask_length]; omega⟩)) =
      prob (fun q : α × (β × (Fin u → {k : Bytes // k.length = len})) => P q.1 q.2.1 q.2.2) :=
  prob_swap (fun a (q : β × Keyed I n) => P a q.1 (fun i => ⟨(q.2.ask (info i)).take len, by rw [List.length_take, ask_length]; omega⟩))
    (fun a (q : β × (Fin u → {k : Bytes // k.length = len})) => P a q.1 q.2)
    fun a => prob_swap (fun b (U : Keyed I n) => P a b (fun i => ⟨(U.ask (info i)).take len, by rw [List.length_take, ask_length]; omega⟩))
      (fun b (k : Fin u → {k : Bytes // k.length = len}) => P a b k)
      fun b => prob_ideal h info hinj hi (P a b)

/-- **Links under exchanged keys are as good as links under random keys.** Both secret keys are uniformly random, and so is the
compression function, which the attacker evaluates at most `p` times. The attacker knows both public keys, chooses what is sent over
the links, and owns the network. Any event `P` about the outcome has nearly the same probability as with uniformly random independent
keys for the links, unless the attacker finds the shared secret from the public keys. -/
theorem C133_tunnel (v : Variant) (m : Mode) (salt : Bytes) (info : Fin u → Bytes) (hinj : Function.Injective info) (hs : salt.length ≤ v.block)
    (I : Nat) (hi : ∀ i, (info i).length ≤ I) (hI : v.block + (v.size + I + 1) < 2 ^ 61)
    (hL : len ≤ 255 * v.size) (hm : m = .debug → len < 254 * v.size) (S : Scheme {k : Bytes // k.length = len}) (right : Bool)
    (A : Bytes × Bytes → TunnelGame.Attacker v.width u) (blocks : Nat → Nat → Nat) (n p a : Nat)
    (hA : ∀ pks, (A pks).Within v.block blocks n p a) (P : Outcome → Prop) :
    |overTunnel v m salt info S right A P - overRandomKeys v m S right A P| ≤ findsExchanged v m S right A + v.tunnelError p info len := by
  unfold overTunnel overRandomKeys
  have hbb : v.block ≤ 128 := by cases v <;> decide
  have hi' : ∀ i, v.block + (v.size + (info i).length + 1) < 2 ^ 61 := fun i => by have := hi i; omega
  let X : Bytes × Bytes → KdfGame.Attacker v.width Outcome := fun pks => askLinks len info fun keys => tunnelKdf S right keys id (A pks) start
  have hX : ∀ pks, (X pks).Within v.block I len v.expandBlocks p (List.ofFn fun i => v.expandBlocks (info i).length len).sum := fun pks =>
    askLinks_within v.expandBlocks (le_refl _) info hi _ fun k => tunnelKdf_within S right k id (A pks) start p a (hA pks)
  have h := C108_key_exchange v m salt hs I len hI hL hm (zeros v.size) (by simp) X p _ hX (fun r => ∃ o, r = some o ∧ P o)
  have e1 : ∀ q : (SecretKey × SecretKey) × Fn v.width v.block, (∃ o, ((exchange m q.1.1.1 q.1.2.1).bind fun e =>
        (Hkdf.extract (v.codeWith (fn q.2)) m salt e.2 (zeros v.size)).bind fun d => KdfGame.play (hkdfWorld v.codeWith m (fn q.2) d) (X e.1)) = some o ∧ P o) ↔
      ∃ pks keys, Handshake v (fn q.2) m salt info q.1.1.1 q.1.2.1 pks keys ∧ P (run (fn q.2) S right keys (A pks) start) := by
    intro q
    obtain ⟨pa, pb, keys, hh, -, huniq⟩ := C133_handshake (len := len) v (fn q.2) m salt info (by omega) hi' hL hm q.1.1.1 q.1.2.1 q.1.1.2 q.1.2.2
    have hh' := hh
    obtain ⟨s, d, h1, he, hk⟩ := hh'
    have hp : KdfGame.play (hkdfWorld v.codeWith m (fn q.2) d) (X (pa, pb)) = some (run (fn q.2) S right keys (A (pa, pb)) start) := by
      show KdfGame.play _ (askLinks len info fun keys => tunnelKdf S right keys id (A (pa, pb)) start) = _
      rw [play_askLinks _ info keys hk]
      exact play_tunnelKdf _ S right keys id (A (pa, pb)) start
    rw [h1, Option.bind_some, he, Option.bind_some, hp]
    constructor
    · rintro ⟨o, ho, hP⟩
      exact ⟨_, _, hh, by rw [Option.some.inj ho]; exact hP⟩
    · rintro ⟨pks, keys', ho, hP⟩
      obtain ⟨rfl, rfl⟩ := huniq _ _ ho
      exact ⟨_, rfl, hP⟩
  have hd : ∀ (f : Oct v.width → Bytes → Oct v.width) (U : Keyed I (255 * v.size)) (i : Fin u),
      (idealKdf f U).derive (info i) (zeros len) = some ((U.ask (info i)).take len) := fun f U i => by
    show some ((U.ask (info i)).take (zeros len).length) = _
    rw [zeros_length]
  have hlen : ∀ (U : Keyed I (255 * v.size)) (i : Fin u), ((U.ask (info i)).take len).length = len := fun U i => by
    rw [List.length_take, ask_length]; omega
  have hideal : ∀ (f : Oct v.width → Bytes → Oct v.width) (U : Keyed I (255 * v.size)) pks, KdfGame.play (idealKdf f U) (X pks) =
      some (run f S right (fun i => ⟨(U.ask (info i)).take len, hlen U i⟩) (A pks) start) := by
    intro f U pks
    show KdfGame.play (idealKdf f U) (askLinks len info fun keys => tunnelKdf S right keys id (A pks) start) = _
    rw [play_askLinks _ info (fun i => ⟨(U.ask (info i)).take len, hlen U i⟩) (hd f U), play_tunnelKdf]
    rfl
  have e2 : prob (fun q : (SecretKey × SecretKey) × (Fn v.width v.block × Keyed I (255 * v.size)) => ∃ o, ((exchange m q.1.1.1 q.1.2.1).bind fun e =>
        KdfGame.play (idealKdf (fn q.2.1) q.2.2) (X e.1)) = some o ∧ P o) =
      prob (fun q : (SecretKey × SecretKey) × (Fn v.width v.block × (Fin u → {k : Bytes // k.length = len})) => ∃ pks s,
        exchange m q.1.1.1 q.1.2.1 = some (pks, s) ∧ P (run (fn q.2.1) S right q.2.2 (A pks) start)) := by
    rw [← prob_ideal3 hL info hinj hi (fun (k : SecretKey × SecretKey) (F : Fn v.width v.block) keys => ∃ pks s,
        exchange m k.1.1 k.2.1 = some (pks, s) ∧ P (run (fn F) S right keys (A pks) start))]
    refine hmac_prob_congr fun q => ?_
    obtain ⟨pa, pb, s, h1, -⟩ := C108_exchange m q.1.1.1 q.1.2.1 q.1.1.2 q.1.2.2
    rw [h1, Option.bind_some, hideal]
    simp
  have e3 : prob (fun q : (SecretKey × SecretKey) × (Fn v.width v.block × Keyed I (255 * v.size)) => ∃ pks s,
      exchange m q.1.1.1 q.1.2.1 = some (pks, s) ∧ KdfGame.Compresses (idealKdf (fn q.2.1) q.2.2) (X pks) s) = findsExchanged v m S right A := by
    unfold findsExchanged
    rw [← prob_ideal3 hL info hinj hi (fun (k : SecretKey × SecretKey) (F : Fn v.width v.block) keys => ∃ pks s,
        exchange m k.1.1 k.2.1 = some (pks, s) ∧ ∃ b ∈ (run (fn F) S right keys (A pks) start).compressed, s <+: b)]
    refine hmac_prob_congr fun q => exists_congr fun pks => exists_congr fun s => and_congr Iff.rfl ?_
    obtain ⟨l, h1, h2⟩ := logged_tunnelKdf (idealKdf (fn q.2.1) q.2.2) S right (fun i => ⟨(q.2.2.ask (info i)).take len, hlen q.2.2 i⟩) id
      (A pks) start []
    have hl : KdfGame.play (idealKdf (fn q.2.1) q.2.2) ((X pks).logged []) = some l := by
      show KdfGame.play (idealKdf (fn q.2.1) q.2.2) ((askKeys len (List.ofFn info) _).logged []) = _
      rw [logged_askKeys]
      exact (play_askLinks _ info (fun i => ⟨(q.2.2.ask (info i)).take len, hlen q.2.2 i⟩) (hd _ _)
        (fun keys => (tunnelKdf S right keys id (A pks) start).logged [])).trans h1
    unfold KdfGame.Compresses
    rw [hl]
    constructor
    · rintro ⟨l', e, b, hb, hp⟩
      rw [← Option.some.inj e, h2] at hb
      exact ⟨b, hb.resolve_left (by simp), hp⟩
    · rintro ⟨b, hb, hp⟩
      exact ⟨l, rfl, b, (h2 b).mpr (Or.inr hb), hp⟩
  simp only [e1] at h
  rw [e2, e3] at h
  exact h

/-! ## The distinguishers -/

/-- What the distinguishers draw at random: the secret keys of both parties and the compression function. -/
abbrev TunnelCoins (v : Variant) := (SecretKey × SecretKey) × Fn v.width v.block

/-- Do the key exchange, tell the attacker the public keys and the compression function, and test the attack on the records with `T`. -/
def tunnelTest {α β : Type} (v : Variant) (m : Mode) (T : RecordGame.Attacker u → Distinguisher α β)
    (A : Bytes × Bytes → TunnelGame.Attacker v.width u) (c : TunnelCoins v) : Distinguisher α β :=
  match exchange m c.1.1.1 c.1.2.1 with
  | none => .verdict false
  | some (pks, _) => T ((A pks).knowing (fn c.2))

theorem tunnelTest_eq {α β : Type} (v : Variant) (m : Mode) (A : Bytes × Bytes → TunnelGame.Attacker v.width u) (c : TunnelCoins v) :
    ∃ pks s, exchange m c.1.1.1 c.1.2.1 = some (pks, s) ∧ ∀ T : RecordGame.Attacker u → Distinguisher α β,
      tunnelTest v m T A c = T ((A pks).knowing (fn c.2)) := by
  obtain ⟨pa, pb, s, h1, -⟩ := C108_exchange m c.1.1.1 c.1.2.1 c.1.1.2 c.1.2.2
  exact ⟨(pa, pb), s, h1, fun T => by rw [tunnelTest, h1]⟩

/-- The same choices in another order. -/
def reorder (α β γ : Type) : γ × (α × β) ≃ α × (β × γ) where
  toFun x := (x.2.1, (x.2.2, x.1))
  invFun x := (x.2.2, (x.1, x.2.1))
  left_inv _ := rfl
  right_inv _ := rfl

instance (v : Variant) : Nonempty (TunnelCoins v) := ⟨((⟨zeros 32, by simp⟩, ⟨zeros 32, by simp⟩), fun x => x.1)⟩

theorem tunnel_broken_le {α β J : Type} [Finite K] [Finite J] (v : Variant) (m : Mode) (S : Scheme K) (right : Bool)
    (A : Bytes × Bytes → TunnelGame.Attacker v.width u) (real : (Fin u → K) → α → β) (ideal : J → α → β)
    (T : RecordGame.Attacker u → Distinguisher α β) (hT : ∀ B k, RecordGame.breaks S right k B start → (T B).run (real k) = true) (e : ℚ)
    (h : ∀ pks f, prob (fun j => (T ((A pks).knowing f)).run (ideal j) = true) ≤ e) :
    overRandomKeys v m S right A (fun o => o.broken) ≤ coinAdvantage real ideal (tunnelTest v m T A) + e := by
  have h1 : overRandomKeys v m S right A (fun o => o.broken) ≤
      prob (fun q : (Fin u → K) × TunnelCoins v => (tunnelTest v m T A q.2).run (real q.1) = true) := by
    unfold overRandomKeys
    rw [← prob_equiv (reorder _ _ _)]
    refine prob_mono fun q hq => ?_
    obtain ⟨pks, s, e1, hq⟩ := hq
    obtain ⟨pks', s', e2, e3⟩ := tunnelTest_eq (α := α) (β := β) v m A q.2
    obtain ⟨rfl, rfl⟩ := Prod.mk.inj (Option.some.inj (e1.symm.trans e2))
    rw [e3]
    exact hT _ _ ((run_knowing _ _ _ _ _ _).2 hq)
  have h2 : prob (fun q : J × TunnelCoins v => (tunnelTest v m T A q.2).run (ideal q.1) = true) ≤ e := by
    refine prob_prod_le _ _ fun c => ?_
    obtain ⟨pks', s', e2, e3⟩ := tunnelTest_eq (α := α) (β := β) v m A c
    simp only [e3]
    exact h _ _
  have h3 := Proofs.HmacPrf.real_le real ideal (tunnelTest v m T A)
  linarith

theorem tunnel_guess_le {α β J : Type} [Finite K] [Finite J] (v : Variant) (m : Mode) (S : Scheme K)
    (A : Bytes × Bytes → TunnelGame.Attacker v.width u) (real : (Fin u → K) → α → β) (ideal : J → α → β)
    (T : Bool → RecordGame.Attacker u → Distinguisher α β) (hT : ∀ r B k, (T r B).run (real k) = RecordGame.play S r k B start) (e : ℚ)
    (h : ∀ pks f, |prob (fun j => (T false ((A pks).knowing f)).run (ideal j) = true) -
      prob (fun j => (T true ((A pks).knowing f)).run (ideal j) = true)| ≤ e) :
    |overRandomKeys v m S false A (fun o => o.guess = true) - overRandomKeys v m S true A (fun o => o.guess = true)| ≤
      coinAdvantage real ideal (tunnelTest v m (T false) A) + coinAdvantage real ideal (tunnelTest v m (T true) A) + e := by
  have h1 : ∀ r, overRandomKeys v m S r A (fun o => o.guess = true) =
      prob (fun q : (Fin u → K) × TunnelCoins v => (tunnelTest v m (T r) A q.2).run (real q.1) = true) := by
    intro r
    unfold overRandomKeys
    rw [← prob_equiv (reorder _ _ _)]
    refine hmac_prob_congr fun q => ?_
    obtain ⟨pks', s', e2, e3⟩ := tunnelTest_eq (α := α) (β := β) v m A q.2
    rw [e3, hT, ← (run_knowing _ _ _ _ _ _).1]
    constructor
    · rintro ⟨pks, s, e1, hq⟩
      obtain ⟨rfl, rfl⟩ := Prod.mk.inj (Option.some.inj (e1.symm.trans e2))
      exact hq
    · exact fun hq => ⟨_, _, e2, hq⟩
  have h2 : |prob (fun q : J × TunnelCoins v => (tunnelTest v m (T false) A q.2).run (ideal q.1) = true) -
      prob (fun q : J × TunnelCoins v => (tunnelTest v m (T true) A q.2).run (ideal q.1) = true)| ≤ e := by
    rw [← prob_equiv (Equiv.prodComm (TunnelCoins v) J) (fun q => (tunnelTest v m (T false) A q.2).run (ideal q.1) = true),
      ← prob_equiv (Equiv.prodComm (TunnelCoins v) J) (fun q => (tunnelTest v m (T true) A q.2).run (ideal q.1) = true)]
    refine prob_avg (K := TunnelCoins v) (fun c j => (tunnelTest v m (T false) A c).run (ideal j) = true)
      (fun c j => (tunnelTest v m (T true) A c).run (ideal j) = true) e fun c => ?_
    obtain ⟨pks', s', e2, e3⟩ := tunnelTest_eq (α := α) (β := β) v m A c
    simp only [e3]
    exact h _ _
  have h3 : ∀ r, |prob (fun q : (Fin u → K) × TunnelCoins v => (tunnelTest v m (T r) A q.2).run (real q.1) = true) -
    prob (fun q : J × TunnelCoins v => (tunnelTest v m (T r) A q.2).run (ideal q.1) = true)| ≤ coinAdvantage real ideal (tunnelTest v m (T r) A) :=
    fun r => le_refl _
  rw [h1, h1]
  have f1 := abs_le.mp (h3 false)
  have f2 := abs_le.mp (h3 true)
  have f3 := abs_le.mp h2
  rw [abs_le]
  constructor <;> linarith

/-- How well `D`, which may do the key exchange itself, tells AES under `u` independent random keys from `u` independent random functions. -/
noncomputable abbrev aesTunnelAdvantage (v : Variant) (u : Nat) (k : AesKind)
    (D : TunnelCoins v → Distinguisher (Fin u × BitVec 128) (BitVec 128)) : ℚ :=
  coinAdvantage (fun (keys : Fin u → AesKey k) x => aesFunction k (keys x.1) x.2) (fun (F : Fin u → BlockFunction) x => F x.1 x.2) D

/-- The same for `u` independent random permutations of the blocks. -/
noncomputable abbrev aesTunnelPermAdvantage (v : Variant) (u : Nat) (k : AesKind)
    (D : TunnelCoins v → Distinguisher (Fin u × BitVec 128) (BitVec 128)) : ℚ :=
  coinAdvantage (fun (keys : Fin u → AesKey k) x => aesFunction k (keys x.1) x.2) (fun (π : Fin u → Equiv.Perm (BitVec 128)) x => π x.1 x.2) D

/-- How well `D` tells the ChaCha20 block function under `u` independent random keys from `u` independent random functions. -/
noncomputable abbrev chachaTunnelAdvantage (v : Variant) (u : Nat) (D : TunnelCoins v → Distinguisher (Fin u × ChaChaPoint) ChaChaBlock) : ℚ :=
  coinAdvantage (fun (keys : Fin u → ChaChaKey) x => chachaFunction (keys x.1) x.2)
    (fun (G : Fin u → BlockSource) (x : Fin u × ChaChaPoint) => G x.1 x.2.1 x.2.2) D

/-- The distinguishers of the bounds below: they do the key exchange, run the attack, the unknown functions being the keys of the
links, and report a forgery or the guess. -/
def aesTunnelForger (v : Variant) (m : Mode) (right : Bool) (A : Bytes × Bytes → TunnelGame.Attacker v.width u) :
    TunnelCoins v → Distinguisher (Fin u × BitVec 128) (BitVec 128) :=
  tunnelTest v m (fun B => MultiGame.forgeryTest (gcmScheme oracle m) gcmPoints right (recordAttack B)) A

@[inherit_doc aesTunnelForger]
def aesTunnelReader (v : Variant) (m : Mode) (right : Bool) (A : Bytes × Bytes → TunnelGame.Attacker v.width u) :
    TunnelCoins v → Distinguisher (Fin u × BitVec 128) (BitVec 128) :=
  tunnelTest v m (fun B => MultiGame.guessTest (gcmScheme oracle m) gcmPoints right (recordAttack B)) A

@[inherit_doc aesTunnelForger]
def chachaTunnelForger (v : Variant) (m : Mode) (right : Bool) (A : Bytes × Bytes → TunnelGame.Attacker v.width u) :
    TunnelCoins v → Distinguisher (Fin u × ChaChaPoint) ChaChaBlock :=
  tunnelTest v m (fun B => MultiGame.forgeryTest (ccpOver m) ccpPoints right (recordAttack B)) A

@[inherit_doc aesTunnelForger]
def chachaTunnelReader (v : Variant) (m : Mode) (right : Bool) (A : Bytes × Bytes → TunnelGame.Attacker v.width u) :
    TunnelCoins v → Distinguisher (Fin u × ChaChaPoint) ChaChaBlock :=
  tunnelTest v m (fun B => MultiGame.guessTest (ccpOver m) ccpPoints right (recordAttack B)) A

/-- They ask for no more blocks than the records make the code compute. -/
theorem C133_work (v : Variant) (m : Mode) (right : Bool) (A : Bytes × Bytes → TunnelGame.Attacker v.width u) (s s' : Nat)
    (hs : ∀ pks, (A pks).Costs gcmCost s) (hs' : ∀ pks, (A pks).Costs ccpCost s') (c : TunnelCoins v) :
    (aesTunnelForger v m right A c).Asks s ∧ (aesTunnelReader v m right A c).Asks s ∧
    (chachaTunnelForger v m right A c).Asks s' ∧ (chachaTunnelReader v m right A c).Asks s' := by
  obtain ⟨pks, -, -, e1⟩ := tunnelTest_eq (α := Fin u × BitVec 128) (β := BitVec 128) v m A c
  obtain ⟨pks', -, -, e2⟩ := tunnelTest_eq (α := Fin u × ChaChaPoint) (β := ChaChaBlock) v m A c
  unfold aesTunnelForger aesTunnelReader chachaTunnelForger chachaTunnelReader
  rw [e1, e1, e2, e2]
  have h1 := C132_work m _ right s s' (knowing_costs (fn c.2) _ s (hs pks)) (knowing_costs (fn c.2) _ s' (hs' pks))
  have h2 := C132_work m _ right s s' (knowing_costs (fn c.2) _ s (hs pks')) (knowing_costs (fn c.2) _ s' (hs' pks'))
  exact ⟨h1.1, h1.2.1, h2.2.2.1, h2.2.2.2⟩

/-! ## The theorems -/

section Theorems
variable (v : Variant) (m : Mode) (salt : Bytes) (info : Fin u → Bytes) (hinj : Function.Injective info) (hs : salt.length ≤ v.block)
  (I : Nat) (hi : ∀ i, (info i).length ≤ I) (hI : v.block + (v.size + I + 1) < 2 ^ 61) (A : Bytes × Bytes → TunnelGame.Attacker v.width u)

include hinj hs hi hI

/-- **AES-GCM: order.** The probability that any receiver ever holds anything but the first records sent over its link, in order, is at
most the probability that the attacker finds the shared secret from the public keys, an error that is tiny unless `p` is huge, how well
the distinguisher made of the attack tells AES from random functions, and what forging a tag of `n` blocks with `a` attempts gives. -/
theorem C133_aes_order (k : AesKind) (right : Bool) (n p a : Nat) (hn : n ≤ 2 ^ 32 - 3) (hA : ∀ pks, (A pks).Within v.block authCount n p a) :
    overTunnel v m salt info (aesGcm k m) right A (fun o => o.broken) ≤
      findsExchanged v m (aesGcm k m) right A + v.tunnelError p info (4 * k.Nk) + aesTunnelAdvantage v u k (aesTunnelForger v m right A) +
        a * n / 2 ^ 128 := by
  have hL : 32 ≤ 255 * v.size ∧ 32 < 254 * v.size := by cases v <;> decide
  have hk : 4 * k.Nk ≤ 32 := by cases k <;> decide
  have h1 := (abs_le.mp (C133_tunnel v m salt info hinj hs I hi hI (by omega) (fun _ => by omega) (aesGcm k m) right A authCount n p a hA
    (fun o => o.broken))).2
  have h2 := tunnel_broken_le v m (aesGcm k m) right A (fun (keys : Fin u → AesKey k) x => aesFunction k (keys x.1) x.2)
    (fun (F : Fin u → BlockFunction) x => F x.1 x.2)
    (fun B => MultiGame.forgeryTest (gcmScheme oracle m) gcmPoints right (recordAttack B))
    (fun B keys hb => by
      refine (MultiGame.tests_run (gcm_local m) right _ fun i => aesFunction k (keys i)).1.mpr ?_
      refine (MultiGame.over_congr (S := gcmScheme oracle m) (S' := aesGcm k m) keys (aesFunction k) (fun key => aesGcm_eq k m key) right _ []).2.mp ?_
      exact records_forge (aesGcm_roundTrip k m) right keys B hb)
    (a * n / 2 ^ 128)
    (fun pks f => by
      have := C121_gcm_forgery m (recordAttack ((A pks).knowing f)) a n hn (records_within (knowing_within f _ p a (hA pks))) right
      rwa [hmac_prob_congr fun F => (MultiGame.tests_run (gcm_local m) right (recordAttack ((A pks).knowing f)) F).1.symm] at this)
  change overRandomKeys v m (aesGcm k m) right A (fun o => o.broken) ≤ aesTunnelAdvantage v u k (aesTunnelForger v m right A) + _ at h2
  linarith

/-- **ChaCha20-Poly1305: order.** -/
theorem C133_chacha_order (right : Bool) (n p a : Nat) (hn : n ≤ 2 ^ 34 - 16) (hA : ∀ pks, (A pks).Within v.block authCount n p a) :
    overTunnel v m salt info (chachaPoly m) right A (fun o => o.broken) ≤
      findsExchanged v m (chachaPoly m) right A + v.tunnelError p info 32 + chachaTunnelAdvantage v u (chachaTunnelForger v m right A) +
        a * (1480 * n) / 2 ^ 106 := by
  have hL : 32 ≤ 255 * v.size ∧ 32 < 254 * v.size := by cases v <;> decide
  have h1 := (abs_le.mp (C133_tunnel v m salt info hinj hs I hi hI (by omega) (fun _ => by omega) (chachaPoly m) right A authCount n p a hA
    (fun o => o.broken))).2
  have h2 := tunnel_broken_le v m (chachaPoly m) right A (fun (keys : Fin u → ChaChaKey) x => chachaFunction (keys x.1) x.2)
    (fun (G : Fin u → BlockSource) (x : Fin u × ChaChaPoint) => G x.1 x.2.1 x.2.2)
    (fun B => MultiGame.forgeryTest (ccpOver m) ccpPoints right (recordAttack B))
    (fun B keys hb => by
      refine (MultiGame.tests_run (ccp_local m) right _ fun i => chachaFunction (keys i)).1.mpr ?_
      refine (MultiGame.over_congr (S := ccpOver m) (S' := chachaPoly m) keys chachaFunction (fun key => chachaPoly_eq m key) right _ []).2.mp ?_
      exact records_forge (chachaPoly_roundTrip m) right keys B hb)
    (a * (1480 * n) / 2 ^ 106)
    (fun pks f => by
      refine le_trans (le_of_eq (hmac_prob_congr fun G => ?_))
        (C121_ccp_forgery m (recordAttack ((A pks).knowing f)) a n hn (records_within (knowing_within f _ p a (hA pks))) right)
      rw [(MultiGame.over_congr (S := ccpOver m) (S' := ccpScheme m) G (fun G x => G x.1 x.2) (fun _ => ⟨rfl, rfl⟩) right _ []).2]
      exact (MultiGame.tests_run (ccp_local m) right _ fun i x => G i x.1 x.2).1)
  change overRandomKeys v m (chachaPoly m) right A (fun o => o.broken) ≤ chachaTunnelAdvantage v u (chachaTunnelForger v m right A) + _ at h2
  linarith

/-- **AES-GCM: secrecy.** What the attacker sees of the records and of their fate hardly depends on which messages were sent. -/
theorem C133_aes_secrecy (k : AesKind) (n p a : Nat) (hn : n ≤ 2 ^ 32 - 3) (hA : ∀ pks, (A pks).Within v.block authCount n p a) :
    |overTunnel v m salt info (aesGcm k m) false A (fun o => o.guess = true) - overTunnel v m salt info (aesGcm k m) true A (fun o => o.guess = true)| ≤
      findsExchanged v m (aesGcm k m) false A + findsExchanged v m (aesGcm k m) true A + 2 * v.tunnelError p info (4 * k.Nk) +
      aesTunnelAdvantage v u k (aesTunnelReader v m false A) + aesTunnelAdvantage v u k (aesTunnelReader v m true A) +
        2 * (a * n / 2 ^ 128) := by
  have hL : 32 ≤ 255 * v.size ∧ 32 < 254 * v.size := by cases v <;> decide
  have hk : 4 * k.Nk ≤ 32 := by cases k <;> decide
  have h1 := fun r => abs_le.mp (C133_tunnel v m salt info hinj hs I hi hI (by omega) (fun _ => by omega) (aesGcm k m) r A authCount n p a hA
    (fun o => o.guess = true))
  have h2 := tunnel_guess_le v m (aesGcm k m) A (fun (keys : Fin u → AesKey k) x => aesFunction k (keys x.1) x.2)
    (fun (F : Fin u → BlockFunction) x => F x.1 x.2)
    (fun r B => MultiGame.guessTest (gcmScheme oracle m) gcmPoints r (recordAttack B))
    (fun r B keys => by
      refine (MultiGame.tests_run (gcm_local m) r _ fun i => aesFunction k (keys i)).2.trans ?_
      rw [← records_play (aesGcm_roundTrip k m) r keys B]
      exact (MultiGame.over_congr (S := gcmScheme oracle m) (S' := aesGcm k m) keys (aesFunction k) (fun key => aesGcm_eq k m key) r _ []).1.symm)
    (2 * (a * n / 2 ^ 128))
    (fun pks f => by
      have e : ∀ (r : Bool) (F : Fin u → BlockFunction), (MultiGame.guessTest (gcmScheme oracle m) gcmPoints r (recordAttack ((A pks).knowing f))).run
          (fun x => F x.1 x.2) = MultiGame.play (gcmScheme oracle m) r F (recordAttack ((A pks).knowing f)) [] := fun r F =>
        (MultiGame.tests_run (gcm_local m) r _ F).2
      have := C121_gcm_confidentiality m (recordAttack ((A pks).knowing f)) a n hn (records_within (knowing_within f _ p a (hA pks)))
      simpa only [e] using this)
  change _ ≤ aesTunnelAdvantage v u k (aesTunnelReader v m false A) + aesTunnelAdvantage v u k (aesTunnelReader v m true A) + _ at h2
  have h3 := abs_le.mp h2
  have h4 := h1 false
  have h5 := h1 true
  rw [abs_le]
  constructor <;> linarith [h3.1, h3.2, h4.1, h4.2, h5.1, h5.2]

/-- **ChaCha20-Poly1305: secrecy.** -/
theorem C133_chacha_secrecy (n p a : Nat) (hn : n ≤ 2 ^ 34 - 16) (hA : ∀ pks, (A pks).Within v.block authCount n p a) :
    |overTunnel v m salt info (chachaPoly m) false A (fun o => o.guess = true) - overTunnel v m salt info (chachaPoly m) true A (fun o => o.guess = true)| ≤
      findsExchanged v m (chachaPoly m) false A + findsExchanged v m (chachaPoly m) true A + 2 * v.tunnelError p info 32 +
      chachaTunnelAdvantage v u (chachaTunnelReader v m false A) + chachaTunnelAdvantage v u (chachaTunnelReader v m true A) +
        2 * (a * (1480 * n) / 2 ^ 106) := by
  have hL : 32 ≤ 255 * v.size ∧ 32 < 254 * v.size := by cases v <;> decide
  have h1 := fun r => abs_le.mp (C133_tunnel v m salt info hinj hs I hi hI (by omega) (fun _ => by omega) (chachaPoly m) r A authCount n p a hA
    (fun o => o.guess = true))
  have h2 := tunnel_guess_le v m (chachaPoly m) A (fun (keys : Fin u → ChaChaKey) x => chachaFunction (keys x.1) x.2)
    (fun (G : Fin u → BlockSource) (x : Fin u × ChaChaPoint) => G x.1 x.2.1 x.2.2)
    (fun r B => MultiGame.guessTest (ccpOver m) ccpPoints r (recordAttack B))
    (fun r B keys => by
      refine (MultiGame.tests_run (ccp_local m) r _ fun i => chachaFunction (keys i)).2.trans ?_
      rw [← records_play (chachaPoly_roundTrip m) r keys B]
      exact (MultiGame.over_congr (S := ccpOver m) (S' := chachaPoly m) keys chachaFunction (fun key => chachaPoly_eq m key) r _ []).1.symm)
    (2 * (a * (1480 * n) / 2 ^ 106))
    (fun pks f => by
      have e : ∀ (r : Bool) (G : Fin u → BlockSource), (MultiGame.guessTest (ccpOver m) ccpPoints r (recordAttack ((A pks).knowing f))).run
          (fun x => G x.1 x.2.1 x.2.2) = MultiGame.play (ccpScheme m) r G (recordAttack ((A pks).knowing f)) [] := fun r G => by
        rw [(MultiGame.over_congr (S := ccpOver m) (S' := ccpScheme m) G (fun G x => G x.1 x.2) (fun _ => ⟨rfl, rfl⟩) r _ []).1]
        exact (MultiGame.tests_run (ccp_local m) r _ fun i x => G i x.1 x.2).2
      have := C121_ccp_confidentiality m (recordAttack ((A pks).knowing f)) a n hn (records_within (knowing_within f _ p a (hA pks)))
      simpa only [e] using this)
  change _ ≤ chachaTunnelAdvantage v u (chachaTunnelReader v m false A) + chachaTunnelAdvantage v u (chachaTunnelReader v m true A) + _ at h2
  have h3 := abs_le.mp h2
  have h4 := h1 false
  have h5 := h1 true
  rw [abs_le]
  constructor <;> linarith [h3.1, h3.2, h4.1, h4.2, h5.1, h5.2]

end Theorems

/-! ## AES against random permutations -/

/-- Random functions against random permutations, for the distinguishers above: the records together make at most `s` and those of
each link at most `B` calls of AES. -/
theorem C133_switch (v : Variant) (m : Mode) (right : Bool) (A : Bytes × Bytes → TunnelGame.Attacker v.width u) (k : AesKind) (s B : Nat)
    (hB1 : 1 ≤ B) (hs : ∀ pks, (A pks).Costs gcmCost s) (hB : ∀ pks, (A pks).CostsEach gcmCost B (fun _ => 0)) :
    aesTunnelAdvantage v u k (aesTunnelForger v m right A) ≤
      aesTunnelPermAdvantage v u k (aesTunnelForger v m right A) + s * (B - 1) / 2 ^ 129 ∧
    aesTunnelAdvantage v u k (aesTunnelReader v m right A) ≤
      aesTunnelPermAdvantage v u k (aesTunnelReader v m right A) + s * (B - 1) / 2 ^ 129 := by
  have key : ∀ D : TunnelCoins v → Distinguisher (Fin u × BitVec 128) (BitVec 128), (∀ c, Switch.Budget B (D c) s (fun _ => 0)) →
      aesTunnelAdvantage v u k D ≤ aesTunnelPermAdvantage v u k D + s * (B - 1) / 2 ^ 129 := by
    intro D hD
    have h1 := prob_avg (K := TunnelCoins v) (fun c (F : Fin u → BlockFunction) => (D c).run (fun x => F x.1 x.2) = true)
      (fun c (π : Fin u → Equiv.Perm (BitVec 128)) => (D c).run (fun x => π x.1 x.2) = true) (s * (B - 1) / 2 ^ 129) fun c => by
        have h1 := Switch.multi_switch B hB1 (D c) s (hD c)
        rw [card_block] at h1
        have e : ((s : ℚ) * (B - 1) / 2) / ((2 ^ 128 : Nat) : ℚ) = s * (B - 1) / 2 ^ 129 := by
          push_cast
          rw [div_div]
          norm_num
        rwa [e] at h1
    have e1 := prob_equiv (Equiv.prodComm (TunnelCoins v) (Fin u → BlockFunction)) (fun q => (D q.2).run (fun x => q.1 x.1 x.2) = true)
    have e2 := prob_equiv (Equiv.prodComm (TunnelCoins v) (Fin u → Equiv.Perm (BitVec 128))) (fun q => (D q.2).run (fun x => q.1 x.1 x.2) = true)
    unfold aesTunnelAdvantage aesTunnelPermAdvantage coinAdvantage
    have h2 := abs_sub_le (prob (fun q : (Fin u → AesKey k) × TunnelCoins v => (D q.2).run (fun x => aesFunction k (q.1 x.1) x.2) = true))
      (prob (fun q : (Fin u → Equiv.Perm (BitVec 128)) × TunnelCoins v => (D q.2).run (fun x => q.1 x.1 x.2) = true))
      (prob (fun q : (Fin u → BlockFunction) × TunnelCoins v => (D q.2).run (fun x => q.1 x.1 x.2) = true))
    refine h2.trans (add_le_add_right ?_ _)
    rw [abs_sub_comm, ← e1, ← e2]
    exact h1
  have hb := fun c : TunnelCoins v => fun pks => MultiGame.tests_budget (S := gcmScheme oracle m) gcmPoints_length right
    (recordAttack ((A pks).knowing (fn c.2))) s B (fun _ => 0) (RecordGame.costs_toMulti _ _ _ _ _ (knowing_costs _ _ _ (hs pks)))
    (RecordGame.costsEach_toMulti _ _ _ _ _ _ (knowing_costsEach _ _ _ (hB pks))) []
  refine ⟨key _ fun c => ?_, key _ fun c => ?_⟩
  · obtain ⟨pks, -, -, e1⟩ := tunnelTest_eq (α := Fin u × BitVec 128) (β := BitVec 128) v m A c
    rw [aesTunnelForger, e1]
    exact (hb c pks).1
  · obtain ⟨pks, -, -, e1⟩ := tunnelTest_eq (α := Fin u × BitVec 128) (β := BitVec 128) v m A c
    rw [aesTunnelReader, e1]
    exact (hb c pks).2

/-! ## Finding the shared secret -/

/-- The program that looks for the shared secret of two public keys: it runs the attack against links with random keys and a random
compression function, and says what the `j`-th block starts with on which the attacker evaluates the compression function. -/
def secretFinder (v : Variant) (S : Scheme K) (right : Bool) (A : Bytes × Bytes → TunnelGame.Attacker v.width u) (pks : Bytes × Bytes)
    (F : Fn v.width v.block) (keys : Fin u → K) (j : Nat) : Option Bytes :=
  (run (fn F) S right keys (A pks) start).compressed[j]?.map (List.take 32)

theorem compressed_length {B n : Nat} {blocks : Nat → Nat → Nat} (f : Oct w → Bytes → Oct w) (S : Scheme K) (right : Bool) (k : Fin u → K)
    (A : TunnelGame.Attacker w u) (p a : Nat) (h : A.Within B blocks n p a) (st : State u) : (run f S right k A st).compressed.length ≤ p := by
  induction A generalizing p a st with
  | stop g => simp [run]
  | compress H b next ih =>
    obtain ⟨h1, p, rfl, h⟩ := h
    rw [run]
    simpa using ih _ _ _ (h _) st
  | send link data msg msg' next ih =>
    rw [run]
    split
    · exact ih _ _ _ (h.2 _) _
    · exact ih _ _ _ (h.2 _) _
  | deliver link data ct t next ih =>
    obtain ⟨h1, a, rfl, h⟩ := h
    rw [run]
    exact ih _ _ _ (h _) _

/-- **Finding the shared secret is solving the Diffie-Hellman problem of X25519.** An attacker that makes at most `p` evaluations finds the
secret at most `p` times as often as the program above, with `j < p` drawn at random, says from the two public keys what
`x25519` computes from them. -/
theorem C133_diffie_hellman [Finite K] (v : Variant) (m : Mode) (S : Scheme K) (right : Bool) (A : Bytes × Bytes → TunnelGame.Attacker v.width u)
    (blocks : Nat → Nat → Nat) (n p a : Nat) (hA : ∀ pks, (A pks).Within v.block blocks n p a) :
    findsExchanged v m S right A ≤ p * prob (fun q : ((SecretKey × SecretKey) × (Fn v.width v.block × (Fin u → K))) × Fin p => ∃ pks s,
      exchange m q.1.1.1.1 q.1.1.2.1 = some (pks, s) ∧ secretFinder v S right A pks q.1.2.1 q.1.2.2 q.2 = some s) := by
  have hp : findsExchanged v m S right A ≤ ∑ j : Fin p, prob (fun q : (SecretKey × SecretKey) × (Fn v.width v.block × (Fin u → K)) => ∃ pks s,
      exchange m q.1.1.1 q.1.2.1 = some (pks, s) ∧ secretFinder v S right A pks q.2.1 q.2.2 j = some s) := by
    unfold findsExchanged
    refine le_trans (prob_mono fun q hq => ?_) (Game.prob_exists _)
    obtain ⟨pa, pb, s', h1, -, -, -, hl⟩ := C108_exchange m q.1.1.1 q.1.2.1 q.1.1.2 q.1.2.2
    obtain ⟨pks, s, e, b, hb, hs⟩ := hq
    rw [h1] at e
    obtain ⟨rfl, rfl⟩ := Prod.mk.inj (Option.some.inj e)
    obtain ⟨j, hj, rfl⟩ := List.mem_iff_getElem.mp hb
    have hlt := compressed_length (fn q.2.1) S right q.2.2 _ p a (hA (pa, pb)) start
    refine ⟨⟨j, by omega⟩, _, _, h1, ?_⟩
    unfold secretFinder
    rw [List.getElem?_eq_getElem hj, Option.map_some]
    obtain ⟨t, ht⟩ := hs
    rw [← ht, ← hl, List.take_left]
  refine hp.trans (le_of_eq ?_)
  rw [prob_prod]
  rcases Nat.eq_zero_or_pos p with rfl | hp0
  · simp
  · rw [Fintype.card_fin, mul_div_cancel₀]
    exact_mod_cast hp0.ne'

/-! ## Concrete cases -/

/-- Two links, one for each direction. The attacker compresses a block that starts with the first public key, has a record sent over the
first link, and presents it to the receiver of the second. -/
def reflectOnTunnel (pks : Bytes × Bytes) : TunnelGame.Attacker 32 2 :=
  .compress Model.Sha2.iv256 ((pks.1 ++ zeros 64).take 64) fun _ => .send 0 [1] (List.replicate 20 0) (List.replicate 20 1) fun r => match r with
    | none => .stop false
    | some (ct, t) => .deliver 1 [1] (ct.take 20) t fun d => .stop (d == some true)

theorem reflectOnTunnel_within (pks : Bytes × Bytes) : (reflectOnTunnel pks).Within Variant.sha256.block authCount 4 1 1 := by
  refine ⟨by
    have : Variant.sha256.block = 64 := rfl
    rw [this]; simp, 0, rfl, fun H => ⟨by decide, fun r => ?_⟩⟩
  rcases r with _ | ⟨ct, t⟩
  · trivial
  · refine ⟨?_, 0, rfl, fun d => trivial⟩
    simp only [List.length_take, List.length_cons, List.length_nil, authCount]
    omega

/-- Its chance against AES-256-GCM with keys from X25519 and HKDF-SHA-256. -/
example (m : Mode) : overTunnel .sha256 m [1] directions (aesGcm .aes256 m) false reflectOnTunnel (fun o => o.broken) ≤
      findsExchanged .sha256 m (aesGcm .aes256 m) false reflectOnTunnel + Variant.sha256.tunnelError 1 directions 32 +
      aesTunnelAdvantage .sha256 2 .aes256 (aesTunnelForger .sha256 m false reflectOnTunnel) + (1 : Nat) * (4 : Nat) / 2 ^ 128 :=
  C133_aes_order .sha256 m [1] directions directions_inj (by decide) 1 (fun _ => le_refl _) (by decide) reflectOnTunnel .aes256 false 4 1 1
    (by norm_num) reflectOnTunnel_within

example (m : Mode) := C133_chacha_order .sha256 m [1] directions directions_inj (by decide) 1 (fun _ => le_refl _) (by decide) reflectOnTunnel true 4 1 1
    (by norm_num) reflectOnTunnel_within

example (m : Mode) := C133_aes_secrecy .sha256 m [1] directions directions_inj (by decide) 1 (fun _ => le_refl _) (by decide) reflectOnTunnel .aes128 4 1 1
    (by norm_num) reflectOnTunnel_within

example (m : Mode) := C133_chacha_secrecy .sha256 m [1] directions directions_inj (by decide) 1 (fun _ => le_refl _) (by decide) reflectOnTunnel 4 1 1
    (by norm_num) reflectOnTunnel_within

example (f : Oct 32 → Bytes → Oct 32) (m : Mode) := C133_handshake (len := 32) .sha256 f m [1] directions (by simp)
  (fun i => by show 64 + (32 + 1 + 1) < 2 ^ 61; norm_num) (by decide) (fun _ => by decide)

/-- The error is tiny. -/
example : Variant.sha256.tunnelError 1 directions 32 ≤ 1 / 2 ^ 244 := by
  have h1 : Variant.sha256.size = 32 := rfl
  have h2 : (List.ofFn fun i => Variant.sha256.expandBlocks (directions i).length 32).sum = 2 := by decide
  unfold Variant.tunnelError leakError
  rw [h1, h2]
  norm_num

theorem reflectOnTunnel_costs (pks : Bytes × Bytes) :
    (reflectOnTunnel pks).Costs gcmCost 8 ∧ (reflectOnTunnel pks).CostsEach gcmCost 4 (fun _ => 0) := by
  have h : ∀ ct : Bytes, gcmCost (ct.take 20).length ≤ 4 := by
    intro ct
    have : (ct.take 20).length ≤ 20 := by simp
    unfold gcmCost
    omega
  constructor
  · refine fun y => ⟨4, by decide, fun r => ?_⟩
    match r with
    | none => trivial
    | some (ct, t) => exact ⟨4 - gcmCost (ct.take 20).length, by have := h ct; omega, fun _ => trivial⟩
  · refine fun y => ⟨by decide, fun r => ?_⟩
    match r with
    | none => trivial
    | some (ct, t) =>
      refine ⟨?_, fun _ => trivial⟩
      rw [Function.update_of_ne (by decide)]
      simpa using h ct

example (m : Mode) := C133_switch .sha256 m true reflectOnTunnel .aes192 8 4 (by norm_num) (fun pks => (reflectOnTunnel_costs pks).1)
  (fun pks => (reflectOnTunnel_costs pks).2)

example (m : Mode) := C133_diffie_hellman .sha256 m (chachaPoly m) true reflectOnTunnel authCount 4 1 1 reflectOnTunnel_within

/-- If both links had the same key, the reflected record would be accepted, and the order broken. -/
example (F : BlockFunction) (f : Oct 32 → Bytes → Oct 32) (pks : Bytes × Bytes) :
    (run f (gcmScheme oracle .release) false (fun _ => F) (reflectOnTunnel pks) start).broken := by
  have hp : Proofs.Gcm.Permitted (List.replicate 20 0) (zeros 12) [1] (zeros 20) := ⟨by simp, by simp, by simp, by simp⟩
  have e : Model.Gcm.encrypt oracle .release F (List.replicate 20 0) (zeros 12) [1] (zeros 20) = _ :=
    Proofs.Gcm.encrypt_ok oracle F _ (fun _ _ => rfl) (oracle_length F) .release _ _ _ _ hp (Or.inl rfl)
  have hl := Proofs.Gcm.crypt_length _ (oracle_length F) (zeros 12) (by simp) (List.replicate 20 0)
  rw [List.length_replicate] at hl
  have hz : RecordGame.nonce 0 = zeros 12 := by decide +kernel
  unfold reflectOnTunnel
  simp only [run, List.length_replicate, ne_eq, not_true_eq_false, if_false, RecordGame.sendStep, start, List.length_nil, Bool.false_eq_true,
    gcmScheme, hz, e]
  rw [if_neg (by norm_num)]
  refine .inr ?_
  dsimp only
  rw [List.take_of_length_le (by rw [← hl]; rfl)]
  simp only [run, RecordGame.deliverStep, List.length_nil, hz, hl]
  rw [Proofs.Gcm.decrypt_eq oracle F _ (fun _ _ => rfl) (oracle_length F) .release _ _ _ _ _
    ⟨by simp, hl.trans (by simp), by rw [hl]; norm_num, by simp⟩, if_pos rfl, if_pos (Or.inl rfl), if_neg (by norm_num)]
  refine .inr fun hf => ?_
  have := hf 1
  simp at this

end CryptoPure.Props
