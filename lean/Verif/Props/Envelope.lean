import Verif.Spec.Envelope
import Verif.Proofs.Layers
import Verif.Props.Reduction
import Verif.Props.MultiPerm
import Verif.Props.Session

/-! # C162: envelope encryption

Random data keys, wrapped under a random master key with an AEAD of the crate. -/

namespace CryptoPure.Props.Envelope
open CryptoPure.Model CryptoPure.Props CryptoPure.Envelope
open Game (Scheme Adversary prob prob_mono)
open CryptoPure.Layers (exists_key exists_key_le swap_prob)

variable {K : Type} {u : Nat}

/-! ## What the attack sees -/

section
variable (S : Scheme K) (right : Bool) (k : K) (nonce data key : Fin u → Bytes)

/-- The wraps in the game. -/
def shown : Wraps u := wraps S k nonce data (if right then fun i => zeros (key i).length else key)

theorem askAll_game (hn : Function.Injective nonce) (next : Wraps u → Adversary) (l : List (Fin u)) (w : Wraps u) (log : Game.Log) (hl : l.Nodup)
    (hlog : ∀ i ∈ l, nonce i ∉ log.map Prod.fst)
    (hfrom : ∀ e ∈ log, ∃ i, e.1 = nonce i ∧ e.2.1 = data i ∧ shown S right k nonce data key i = some (e.2.2.1, e.2.2.2)) :
    ∃ log' : Game.Log, (∀ e ∈ log', ∃ i, e.1 = nonce i ∧ e.2.1 = data i ∧ shown S right k nonce data key i = some (e.2.2.1, e.2.2.2)) ∧
      Game.play S right k (askAll nonce data key l w next) log =
        Game.play S right k (next fun i => if i ∈ l then shown S right k nonce data key i else w i) log' ∧
      (Game.forges S right k (askAll nonce data key l w next) log ↔
        Game.forges S right k (next fun i => if i ∈ l then shown S right k nonce data key i else w i) log') := by
  induction l generalizing w log with
  | nil => exact ⟨log, hfrom, by simp [askAll], by simp [askAll]⟩
  | cons i l ih =>
    have hi : i ∉ l := (List.nodup_cons.mp hl).1
    have hl' := (List.nodup_cons.mp hl).2
    have hz : (key i).length = (zeros (key i).length).length := by simp [zeros]
    have e : (if right then zeros (key i).length else key i) = (if right then fun i => zeros (key i).length else key) i := by cases right <;> rfl
    have hc : ¬(nonce i ∈ log.map Prod.fst ∨ (key i).length ≠ (zeros (key i).length).length) :=
      not_or.mpr ⟨hlog i (by simp), not_not.mpr hz⟩
    have hs : S.enc k (if right then zeros (key i).length else key i) (nonce i) (data i) (zeros (key i).length) = shown S right k nonce data key i := by
      unfold shown wraps
      rw [e]
      cases right
      · rfl
      · simp [zeros]
    have hw : ∀ r, shown S right k nonce data key i = r →
        (fun j => if j ∈ l then shown S right k nonce data key j else Function.update w i r j) =
        fun j => if j ∈ i :: l then shown S right k nonce data key j else w j := by
      intro r hr
      funext j
      by_cases hj : j = i
      · subst hj
        simp [hi, hr]
      · simp [hj]
    cases hr : shown S right k nonce data key i with
    | none =>
      obtain ⟨log', h1, h2, h3⟩ := ih (Function.update w i none) log hl' (fun j hj => hlog j (by simp [hj])) hfrom
      rw [hw none hr] at h2 h3
      refine ⟨log', h1, ?_, ?_⟩
      · rw [← h2, askAll, Game.play, if_neg hc, hs, hr]
      · rw [← h3, askAll, Game.forges, if_neg hc, hs, hr]
    | some p =>
      obtain ⟨ct, t⟩ := p
      obtain ⟨log', h1, h2, h3⟩ := ih (Function.update w i (some (ct, t))) ((nonce i, data i, ct, t) :: log) hl' (fun j hj => by
          rw [List.map_cons, List.mem_cons, not_or]
          exact ⟨fun h => hi (hn h ▸ hj), hlog j (by simp [hj])⟩) (fun e he => by
          rcases List.mem_cons.mp he with rfl | he
          · exact ⟨i, rfl, rfl, hr⟩
          · exact hfrom e he)
      rw [hw _ hr] at h2 h3
      refine ⟨log', h1, ?_, ?_⟩
      · rw [← h2, askAll, Game.play, if_neg hc, hs, hr]
      · rw [← h3, askAll, Game.forges, if_neg hc, hs, hr]

theorem tellWraps_play (hn : Function.Injective nonce) (report : Wraps u → Bool) :
    Game.play S right k (tellWraps nonce data key report) [] = report (shown S right k nonce data key) := by
  obtain ⟨log', -, h, -⟩ := askAll_game S right k nonce data key hn (fun w => .stop (report w)) (List.finRange u) (fun _ => none) [] (List.nodup_finRange u)
    (by simp) (by simp)
  unfold tellWraps
  rw [h]
  simp [Game.play]

theorem forgeWrap_forges (hn : Function.Injective nonce) (candidate : Wraps u → Bytes × Bytes × Bytes × Bytes × Bytes) (n d ct t b : Bytes)
    (hc : candidate (wraps S k nonce data key) = (n, d, ct, t, b)) (hnew : ∀ i, n = nonce i → d = data i → wraps S k nonce data key i ≠ some (ct, t))
    (ha : ∃ out, S.dec k ct n d t b = some (out, true)) : Game.forges S false k (forgeWrap nonce data key candidate) [] := by
  obtain ⟨log', h1, -, h⟩ := askAll_game S false k nonce data key hn (fun w =>
    .decrypt (candidate w).1 (candidate w).2.1 (candidate w).2.2.1 (candidate w).2.2.2.1 (candidate w).2.2.2.2 fun _ => .stop false) (List.finRange u) (fun _ => none) []
    (List.nodup_finRange u) (by simp) (by simp)
  unfold forgeWrap
  rw [h]
  have e : (fun i => if i ∈ List.finRange u then shown S false k nonce data key i else none) = wraps S k nonce data key := by
    funext i
    simp [shown]
  rw [e, hc, Game.forges]
  rw [if_neg]
  · exact Or.inl ha
  · intro hm
    obtain ⟨i, e1, e2, e3⟩ := h1 _ hm
    exact hnew i e1 e2 e3

end

theorem askAll_within {nonce data key : Fin u → Bytes} {blocks : Nat → Nat → Nat} {n a : Nat} (hb : ∀ i, blocks (data i).length (key i).length ≤ n) (next : Wraps u → Adversary)
    (hw : ∀ w, Game.Within blocks n (next w) a) (l : List (Fin u)) (w : Wraps u) : Game.Within blocks n (askAll nonce data key l w next) a := by
  induction l generalizing w with
  | nil => exact hw w
  | cons i l ih => exact ⟨hb i, fun r => ih _⟩

theorem askAll_costs {nonce data key : Fin u → Bytes} {cost : Nat → Nat} {L s : Nat} (hk : ∀ i, (key i).length = L) (next : Wraps u → Adversary)
    (hw : ∀ w, Distinguisher.Costs cost (next w) s) (l : List (Fin u)) (w : Wraps u) : Distinguisher.Costs cost (askAll nonce data key l w next) (l.length * cost L + s) := by
  induction l generalizing w with
  | nil => simpa [askAll] using hw w
  | cons i l ih =>
    refine ⟨l.length * cost L + s, ?_, fun r => ih _⟩
    rw [hk i, List.length_cons]
    ring

/-! ## The change from the wrapped keys to wrapped zeros -/

/-- Strings of a given length. -/
abbrev Str (n : Nat) := {k : Bytes // k.length = n}

instance (n : Nat) : Nonempty (Str n) := ⟨⟨zeros n, by simp [zeros]⟩⟩

/-- The data keys as strings. -/
abbrev strings {L : Nat} (keys : Fin u → Str L) : Fin u → Bytes := fun i => (keys i).1

section
variable [Finite K] [Nonempty K] {L : Nat} (S : Scheme K) (S' : Scheme (Str L)) (nonce data : Fin u → Bytes) (hn : Function.Injective nonce)
include hn

/-- **The wrapped keys say nothing.** Whatever an observer reports who knows the data keys (say, how an attack on the data ends) and sees the wrapped keys, he reports it nearly as often when zeros are wrapped
instead: the difference is at most the advantage of an attack on the wrapping cipher alone that only has texts encrypted. -/
theorem C162_hop (report : (Fin u → Str L) → Wraps u → Bool) :
    ∃ keys : Fin u → Str L,
      |prob (fun q : K × (Fin u → Str L) => report q.2 (wraps S q.1 nonce data (strings q.2)) = true) -
        prob (fun q : K × (Fin u → Str L) => report q.2 (wraps S q.1 nonce data fun _ => zeros L) = true)| ≤
      |prob (fun k => Game.play S false k (tellWraps nonce data (strings keys) (report keys)) [] = true) -
        prob (fun k => Game.play S true k (tellWraps nonce data (strings keys) (report keys)) [] = true)| := by
  obtain ⟨keys, h⟩ := exists_key (fun q : K × (Fin u → Str L) => report q.2 (wraps S q.1 nonce data (strings q.2)) = true)
    (fun q : K × (Fin u → Str L) => report q.2 (wraps S q.1 nonce data fun _ => zeros L) = true)
  refine ⟨keys, h.trans_eq ?_⟩
  have e0 : ∀ k, shown S false k nonce data (strings keys) = wraps S k nonce data (strings keys) := fun k => rfl
  have e1 : ∀ k, shown S true k nonce data (strings keys) = wraps S k nonce data fun _ => zeros L := fun k => by
    unfold shown
    congr 1
    funext i
    show zeros (keys i).1.length = _
    rw [(keys i).2]
  simp only [tellWraps_play S _ _ nonce data (strings keys) hn, e0, e1]

open Classical in
/-- **Forging the data** of envelope encryption, by someone who sees the wrapped keys: the advantage of an attack on the wrapping cipher alone, which reports forgeries, plus the chance to forge the data
without the wrapped keys. -/
theorem C162_forgery (right : Bool) (A : Wraps u → MultiGame.Adversary u) :
    ∃ (keys : Fin u → Str L) (master : K),
      prob (fun q : K × (Fin u → Str L) => MultiGame.forges S' right q.2 (A (wraps S q.1 nonce data (strings q.2))) []) ≤
      |prob (fun k => Game.play S false k (tellWraps nonce data (strings keys) fun w => decide (MultiGame.forges S' right keys (A w) [])) [] = true) -
        prob (fun k => Game.play S true k (tellWraps nonce data (strings keys) fun w => decide (MultiGame.forges S' right keys (A w) [])) [] = true)| +
      prob (fun keys : Fin u → Str L => MultiGame.forges S' right keys (A (wraps S master nonce data fun _ => zeros L)) []) := by
  obtain ⟨keys, h⟩ := C162_hop S nonce data hn fun (keys : Fin u → Str L) w => decide (MultiGame.forges S' right keys (A w) [])
  obtain ⟨master, h'⟩ := exists_key_le fun q : (Fin u → Str L) × K => MultiGame.forges S' right q.1 (A (wraps S q.2 nonce data fun _ => zeros L)) []
  rw [← swap_prob fun q : K × (Fin u → Str L) => MultiGame.forges S' right q.2 (A (wraps S q.1 nonce data fun _ => zeros L)) []] at h'
  refine ⟨keys, master, ?_⟩
  generalize |prob (fun k => Game.play S false k (tellWraps nonce data (strings keys) fun w => decide (MultiGame.forges S' right keys (A w) [])) [] = true) -
        prob (fun k => Game.play S true k (tellWraps nonce data (strings keys) fun w => decide (MultiGame.forges S' right keys (A w) [])) [] = true)| = ε at h ⊢
  simp only [decide_eq_true_eq] at h
  have := (abs_le.mp h).2
  linarith

/-- **Reading the data** of envelope encryption, by someone who sees the wrapped keys. -/
theorem C162_confidentiality (A : Wraps u → MultiGame.Adversary u) :
    ∃ (keys keys' : Fin u → Str L) (master : K),
      |prob (fun q : K × (Fin u → Str L) => MultiGame.play S' false q.2 (A (wraps S q.1 nonce data (strings q.2))) [] = true) -
        prob (fun q : K × (Fin u → Str L) => MultiGame.play S' true q.2 (A (wraps S q.1 nonce data (strings q.2))) [] = true)| ≤
      |prob (fun k => Game.play S false k (tellWraps nonce data (strings keys) fun w => MultiGame.play S' false keys (A w) []) [] = true) -
        prob (fun k => Game.play S true k (tellWraps nonce data (strings keys) fun w => MultiGame.play S' false keys (A w) []) [] = true)| +
      |prob (fun k => Game.play S false k (tellWraps nonce data (strings keys') fun w => MultiGame.play S' true keys' (A w) []) [] = true) -
        prob (fun k => Game.play S true k (tellWraps nonce data (strings keys') fun w => MultiGame.play S' true keys' (A w) []) [] = true)| +
      |prob (fun keys : Fin u → Str L => MultiGame.play S' false keys (A (wraps S master nonce data fun _ => zeros L)) [] = true) -
        prob (fun keys : Fin u → Str L => MultiGame.play S' true keys (A (wraps S master nonce data fun _ => zeros L)) [] = true)| := by
  obtain ⟨keys, h⟩ := C162_hop S nonce data hn fun (keys : Fin u → Str L) w => MultiGame.play S' false keys (A w) []
  obtain ⟨keys', h'⟩ := C162_hop S nonce data hn fun (keys : Fin u → Str L) w => MultiGame.play S' true keys (A w) []
  obtain ⟨master, h''⟩ := exists_key (fun q : (Fin u → Str L) × K => MultiGame.play S' false q.1 (A (wraps S q.2 nonce data fun _ => zeros L)) [] = true)
    (fun q : (Fin u → Str L) × K => MultiGame.play S' true q.1 (A (wraps S q.2 nonce data fun _ => zeros L)) [] = true)
  rw [← swap_prob fun q : K × (Fin u → Str L) => MultiGame.play S' false q.2 (A (wraps S q.1 nonce data fun _ => zeros L)) [] = true,
    ← swap_prob fun q : K × (Fin u → Str L) => MultiGame.play S' true q.2 (A (wraps S q.1 nonce data fun _ => zeros L)) [] = true] at h''
  refine ⟨keys, keys', master, ?_⟩
  rw [abs_le]
  have a := abs_le.mp h
  have b := abs_le.mp h'
  have c := abs_le.mp h''
  constructor <;> linarith [a.1, a.2, b.1, b.2, c.1, c.2]

/-- **No foreign key is unwrapped.** An attacker who sees the wrapped keys, and even knows the data keys themselves, presents a wrapped key of its own making, with nonce and data (and the receiver some buffer). The
chance that it is accepted, though it is none of the wrapped keys with their nonce and data, is at most that of an attack on the wrapping cipher alone with one decryption attempt. -/
theorem C162_unwrap (candidate : (Fin u → Str L) → Wraps u → Bytes × Bytes × Bytes × Bytes × Bytes) :
    ∃ keys : Fin u → Str L,
      prob (fun q : K × (Fin u → Str L) => ∃ n d ct t b out, candidate q.2 (wraps S q.1 nonce data (strings q.2)) = (n, d, ct, t, b) ∧
        (∀ i, n = nonce i → d = data i → wraps S q.1 nonce data (strings q.2) i ≠ some (ct, t)) ∧ S.dec q.1 ct n d t b = some (out, true)) ≤
      prob (fun k => Game.forges S false k (forgeWrap nonce data (strings keys) (candidate keys)) []) := by
  obtain ⟨keys, h⟩ := exists_key_le fun q : K × (Fin u → Str L) => ∃ n d ct t b out, candidate q.2 (wraps S q.1 nonce data (strings q.2)) = (n, d, ct, t, b) ∧
        (∀ i, n = nonce i → d = data i → wraps S q.1 nonce data (strings q.2) i ≠ some (ct, t)) ∧ S.dec q.1 ct n d t b = some (out, true)
  refine ⟨keys, h.trans (prob_mono fun k => ?_)⟩
  rintro ⟨n, d, ct, t, b, out, h1, h2, h3⟩
  exact forgeWrap_forges S k nonce data (strings keys) hn (candidate keys) n d ct t b h1 h2 ⟨out, h3⟩

end

/-! ## The ciphers of the crate -/

theorem tellWraps_limits {L n : Nat} {nonce data : Fin u → Bytes} (keys : Fin u → Str L) (hn : ∀ i, authCount (data i).length L ≤ n) (report : Wraps u → Bool) :
    Game.Within authCount n (tellWraps nonce data (strings keys) report) 0 ∧ Distinguisher.Costs gcmCost (tellWraps nonce data (strings keys) report) (u * gcmCost L) := by
  refine ⟨askAll_within (fun i => by rw [(keys i).2]; exact hn i) (fun w => .stop (report w)) (fun w => trivial) _ _, ?_⟩
  have h := askAll_costs (nonce := nonce) (data := data) (cost := gcmCost) (s := 0) (fun i => (keys i).2) (fun w => .stop (report w)) (fun w => trivial) (List.finRange u) (fun _ => none)
  rwa [List.length_finRange, Nat.add_zero] at h

instance (k : AesKind) : Nonempty (AesKey k) := ⟨⟨zeros (4 * k.Nk), by simp [zeros]⟩⟩

/-- How well AES can be told from a random permutation by the two tests made of an attack on the wrapping cipher. -/
noncomputable def aesWrapTests (k : AesKind) (m : Mode) (T : Adversary) : ℚ := aesAdvantage k (aesFromGuesser m false T) + aesAdvantage k (aesFromGuesser m true T)

/-- How well the ChaCha20 block function can be told from a random one by the two tests made of an attack on the wrapping cipher. -/
noncomputable def chachaWrapTests (m : Mode) (T : Adversary) : ℚ := chachaAdvantage (chachaFromGuesser m false T) + chachaAdvantage (chachaFromGuesser m true T)

theorem aes_wrap (k : AesKind) (m : Mode) {L n : Nat} (nonce data : Fin u → Bytes) (hd : ∀ i, authCount (data i).length L ≤ n) (hn : n ≤ 2 ^ 32 - 3) (keys : Fin u → Str L)
    (report : Wraps u → Bool) :
    |prob (fun key => Game.play (aesGcm k m) false key (tellWraps nonce data (strings keys) report) [] = true) -
      prob (fun key => Game.play (aesGcm k m) true key (tellWraps nonce data (strings keys) report) [] = true)| ≤
    aesWrapTests k m (tellWraps nonce data (strings keys) report) + (u * gcmCost L : Nat) * ((u * gcmCost L : Nat) - 1) / 2 ^ 128 := by
  have l := tellWraps_limits keys hd report (nonce := nonce)
  have h := C120_gcm_confidentiality k m _ 0 n (u * gcmCost L) hn l.1 l.2
  unfold aesWrapTests
  refine h.trans (le_of_eq ?_)
  push_cast
  ring

theorem chacha_wrap (m : Mode) {L n : Nat} (nonce data : Fin u → Bytes) (hd : ∀ i, authCount (data i).length L ≤ n) (hn : n ≤ 2 ^ 34 - 16) (keys : Fin u → Str L)
    (report : Wraps u → Bool) :
    |prob (fun key => Game.play (chachaPoly m) false key (tellWraps nonce data (strings keys) report) [] = true) -
      prob (fun key => Game.play (chachaPoly m) true key (tellWraps nonce data (strings keys) report) [] = true)| ≤
    chachaWrapTests m (tellWraps nonce data (strings keys) report) := by
  have l := tellWraps_limits keys hd report (nonce := nonce)
  have h := C120_ccp_confidentiality m _ 0 n hn l.1
  unfold chachaWrapTests
  refine h.trans (le_of_eq ?_)
  push_cast
  ring

section
variable (m : Mode) (nonce data : Fin u → Bytes) (A : Wraps u → MultiGame.Adversary u) (a n n' : Nat)

open Classical in
/-- **AES-GCM wraps keys for AES-GCM: forging the data.** Each of the `u` data keys is wrapped under the random master key with a nonce of its own; the attacker sees the wrapped keys and attacks the data of all users, with `a` decryption
attempts, calls of at most `n` blocks each. The data of all users together needs at most `s` applications of AES, that of each user at most `B`. -/
theorem C162_aes_forgery (hinj : Function.Injective nonce) (k k' : AesKind) (s B : Nat) (hd : ∀ i, authCount (data i).length (4 * k'.Nk) ≤ n') (hn' : n' ≤ 2 ^ 32 - 3) (hn : n ≤ 2 ^ 32 - 3)
    (hA : ∀ w, MultiGame.Within authCount n (A w) a) (hB1 : 1 ≤ B) (hs : ∀ w, MultiGame.Costs gcmCost (A w) s) (hB : ∀ w, MultiGame.CostsEach gcmCost B (A w) (fun _ => 0)) (right : Bool) :
    ∃ (keys : Fin u → AesKey k') (master : AesKey k),
      prob (fun q : AesKey k × (Fin u → AesKey k') => MultiGame.forges (aesGcm k' m) right q.2 (A (wraps (aesGcm k m) q.1 nonce data (strings q.2))) []) ≤
      aesWrapTests k m (tellWraps nonce data (strings keys) fun w => decide (MultiGame.forges (aesGcm k' m) right keys (A w) [])) +
        (u * gcmCost (4 * k'.Nk) : Nat) * ((u * gcmCost (4 * k'.Nk) : Nat) - 1) / 2 ^ 128 +
      (aesPermAdvantages u k' (MultiGame.forgeryTest (gcmScheme oracle m) gcmPoints right (A (wraps (aesGcm k m) master nonce data fun _ => zeros (4 * k'.Nk)))) +
        a * n / 2 ^ 128 + s * (B - 1) / 2 ^ 129) := by
  obtain ⟨keys, master, h⟩ := C162_forgery (aesGcm k m) (aesGcm k' m) nonce data hinj right A
  exact ⟨keys, master, h.trans (add_le_add (aes_wrap k m nonce data hd hn' keys _) (C125_forgery k' m _ a n s B hn (hA _) hB1 (hs _) (hB _) right))⟩

/-- **AES-GCM wraps keys for AES-GCM: reading the data.** -/
theorem C162_aes_confidentiality (hinj : Function.Injective nonce) (k k' : AesKind) (s B : Nat) (hd : ∀ i, authCount (data i).length (4 * k'.Nk) ≤ n') (hn' : n' ≤ 2 ^ 32 - 3) (hn : n ≤ 2 ^ 32 - 3)
    (hA : ∀ w, MultiGame.Within authCount n (A w) a) (hB1 : 1 ≤ B) (hs : ∀ w, MultiGame.Costs gcmCost (A w) s) (hB : ∀ w, MultiGame.CostsEach gcmCost B (A w) (fun _ => 0)) :
    ∃ (keys keys' : Fin u → AesKey k') (master : AesKey k),
      |prob (fun q : AesKey k × (Fin u → AesKey k') => MultiGame.play (aesGcm k' m) false q.2 (A (wraps (aesGcm k m) q.1 nonce data (strings q.2))) [] = true) -
        prob (fun q : AesKey k × (Fin u → AesKey k') => MultiGame.play (aesGcm k' m) true q.2 (A (wraps (aesGcm k m) q.1 nonce data (strings q.2))) [] = true)| ≤
      (aesWrapTests k m (tellWraps nonce data (strings keys) fun w => MultiGame.play (aesGcm k' m) false keys (A w) []) +
        (u * gcmCost (4 * k'.Nk) : Nat) * ((u * gcmCost (4 * k'.Nk) : Nat) - 1) / 2 ^ 128) +
      (aesWrapTests k m (tellWraps nonce data (strings keys') fun w => MultiGame.play (aesGcm k' m) true keys' (A w) []) +
        (u * gcmCost (4 * k'.Nk) : Nat) * ((u * gcmCost (4 * k'.Nk) : Nat) - 1) / 2 ^ 128) +
      (aesPermAdvantages u k' (MultiGame.guessTest (gcmScheme oracle m) gcmPoints false (A (wraps (aesGcm k m) master nonce data fun _ => zeros (4 * k'.Nk)))) +
        aesPermAdvantages u k' (MultiGame.guessTest (gcmScheme oracle m) gcmPoints true (A (wraps (aesGcm k m) master nonce data fun _ => zeros (4 * k'.Nk)))) +
        2 * (a * n / 2 ^ 128) + s * (B - 1) / 2 ^ 128) := by
  obtain ⟨keys, keys', master, h⟩ := C162_confidentiality (aesGcm k m) (aesGcm k' m) nonce data hinj A
  exact ⟨keys, keys', master, h.trans (add_le_add (add_le_add (aes_wrap k m nonce data hd hn' keys _) (aes_wrap k m nonce data hd hn' keys' _))
    (C125_confidentiality k' m _ a n s B hn (hA _) hB1 (hs _) (hB _)))⟩

open Classical in
/-- **ChaCha20-Poly1305 wraps keys for ChaCha20-Poly1305: forging the data.** -/
theorem C162_chacha_forgery (hinj : Function.Injective nonce) (hd : ∀ i, authCount (data i).length 32 ≤ n') (hn' : n' ≤ 2 ^ 34 - 16) (hn : n ≤ 2 ^ 34 - 16)
    (hA : ∀ w, MultiGame.Within authCount n (A w) a) (right : Bool) :
    ∃ (keys : Fin u → ChaChaKey) (master : ChaChaKey),
      prob (fun q : ChaChaKey × (Fin u → ChaChaKey) => MultiGame.forges (chachaPoly m) right q.2 (A (wraps (chachaPoly m) q.1 nonce data (strings q.2))) []) ≤
      chachaWrapTests m (tellWraps nonce data (strings keys) fun w => decide (MultiGame.forges (chachaPoly m) right keys (A w) [])) +
      (chachaAdvantages u (MultiGame.forgeryTest (ccpOver m) ccpPoints right (A (wraps (chachaPoly m) master nonce data fun _ => zeros 32))) + a * (1480 * n) / 2 ^ 106) := by
  obtain ⟨keys, master, h⟩ := C162_forgery (chachaPoly m) (chachaPoly m) nonce data hinj right A
  exact ⟨keys, master, h.trans (add_le_add (chacha_wrap m nonce data hd hn' keys _) (C121_chacha_forgery m _ a n hn (hA _) right))⟩

/-- **ChaCha20-Poly1305 wraps keys for ChaCha20-Poly1305: reading the data.** -/
theorem C162_chacha_confidentiality (hinj : Function.Injective nonce) (hd : ∀ i, authCount (data i).length 32 ≤ n') (hn' : n' ≤ 2 ^ 34 - 16) (hn : n ≤ 2 ^ 34 - 16)
    (hA : ∀ w, MultiGame.Within authCount n (A w) a) :
    ∃ (keys keys' : Fin u → ChaChaKey) (master : ChaChaKey),
      |prob (fun q : ChaChaKey × (Fin u → ChaChaKey) => MultiGame.play (chachaPoly m) false q.2 (A (wraps (chachaPoly m) q.1 nonce data (strings q.2))) [] = true) -
        prob (fun q : ChaChaKey × (Fin u → ChaChaKey) => MultiGame.play (chachaPoly m) true q.2 (A (wraps (chachaPoly m) q.1 nonce data (strings q.2))) [] = true)| ≤
      chachaWrapTests m (tellWraps nonce data (strings keys) fun w => MultiGame.play (chachaPoly m) false keys (A w) []) +
      chachaWrapTests m (tellWraps nonce data (strings keys') fun w => MultiGame.play (chachaPoly m) true keys' (A w) []) +
      (chachaAdvantages u (MultiGame.guessTest (ccpOver m) ccpPoints false (A (wraps (chachaPoly m) master nonce data fun _ => zeros 32))) +
        chachaAdvantages u (MultiGame.guessTest (ccpOver m) ccpPoints true (A (wraps (chachaPoly m) master nonce data fun _ => zeros 32))) + 2 * (a * (1480 * n) / 2 ^ 106)) := by
  obtain ⟨keys, keys', master, h⟩ := C162_confidentiality (chachaPoly m) (chachaPoly m) nonce data hinj A
  exact ⟨keys, keys', master, h.trans (add_le_add (add_le_add (chacha_wrap m nonce data hd hn' keys _) (chacha_wrap m nonce data hd hn' keys' _))
    (C121_chacha_confidentiality m _ a n hn (hA _)))⟩

/-- **No foreign key is unwrapped with AES-GCM**: the attacker, who may know the data keys, sees the wrapped keys and presents one of its own making. -/
theorem C162_aes_unwrap (hinj : Function.Injective nonce) (k : AesKind) {L : Nat} (hd : ∀ i, authCount (data i).length L ≤ n') (hn' : n' ≤ 2 ^ 32 - 3)
    (candidate : (Fin u → Str L) → Wraps u → Bytes × Bytes × Bytes × Bytes × Bytes) (hc : ∀ keys w, authCount (candidate keys w).2.1.length (candidate keys w).2.2.1.length ≤ n') :
    ∃ keys : Fin u → Str L,
      prob (fun q : AesKey k × (Fin u → Str L) => ∃ nc d ct t b out, candidate q.2 (wraps (aesGcm k m) q.1 nonce data (strings q.2)) = (nc, d, ct, t, b) ∧
        (∀ i, nc = nonce i → d = data i → wraps (aesGcm k m) q.1 nonce data (strings q.2) i ≠ some (ct, t)) ∧ (aesGcm k m).dec q.1 ct nc d t b = some (out, true)) ≤
      aesAdvantage k (aesFromForger m false (forgeWrap nonce data (strings keys) (candidate keys))) + n' / 2 ^ 128 +
        (u * gcmCost L + n' + 1 : Nat) * ((u * gcmCost L + n' + 1 : Nat) - 1) / 2 ^ 129 := by
  obtain ⟨keys, h⟩ := C162_unwrap (aesGcm k m) nonce data hinj candidate
  refine ⟨keys, h.trans ?_⟩
  have l1 : Game.Within authCount n' (forgeWrap nonce data (strings keys) (candidate keys)) 1 :=
    askAll_within (fun i => by rw [(keys i).2]; exact hd i)
      (fun w => .decrypt (candidate keys w).1 (candidate keys w).2.1 (candidate keys w).2.2.1 (candidate keys w).2.2.2.1 (candidate keys w).2.2.2.2 fun _ => .stop false) (fun w => ⟨hc keys w, 0, rfl, fun _ => trivial⟩) _ _
  have l2 := askAll_costs (nonce := nonce) (data := data) (key := strings keys) (cost := gcmCost) (s := n' + 1) (fun i => (keys i).2)
    (fun w => .decrypt (candidate keys w).1 (candidate keys w).2.1 (candidate keys w).2.2.1 (candidate keys w).2.2.2.1 (candidate keys w).2.2.2.2 fun _ => .stop false)
    (fun w => ⟨n' + 1 - gcmCost (candidate keys w).2.2.1.length, by
      have := hc keys w
      unfold authCount at this
      unfold gcmCost
      omega, fun _ => trivial⟩) (List.finRange u) (fun _ => none)
  rw [List.length_finRange, ← Nat.add_assoc] at l2
  have h2 := C120_gcm_forgery k m _ 1 n' _ hn' l1 l2 false
  refine h2.trans (le_of_eq ?_)
  push_cast
  ring

/-- **No foreign key is unwrapped with ChaCha20-Poly1305.** -/
theorem C162_chacha_unwrap (hinj : Function.Injective nonce) {L : Nat} (hd : ∀ i, authCount (data i).length L ≤ n') (hn' : n' ≤ 2 ^ 34 - 16)
    (candidate : (Fin u → Str L) → Wraps u → Bytes × Bytes × Bytes × Bytes × Bytes) (hc : ∀ keys w, authCount (candidate keys w).2.1.length (candidate keys w).2.2.1.length ≤ n') :
    ∃ keys : Fin u → Str L,
      prob (fun q : ChaChaKey × (Fin u → Str L) => ∃ nc d ct t b out, candidate q.2 (wraps (chachaPoly m) q.1 nonce data (strings q.2)) = (nc, d, ct, t, b) ∧
        (∀ i, nc = nonce i → d = data i → wraps (chachaPoly m) q.1 nonce data (strings q.2) i ≠ some (ct, t)) ∧ (chachaPoly m).dec q.1 ct nc d t b = some (out, true)) ≤
      chachaAdvantage (chachaFromForger m false (forgeWrap nonce data (strings keys) (candidate keys))) + 1480 * n' / 2 ^ 106 := by
  obtain ⟨keys, h⟩ := C162_unwrap (chachaPoly m) nonce data hinj candidate
  refine ⟨keys, h.trans ?_⟩
  have l1 : Game.Within authCount n' (forgeWrap nonce data (strings keys) (candidate keys)) 1 :=
    askAll_within (fun i => by rw [(keys i).2]; exact hd i)
      (fun w => .decrypt (candidate keys w).1 (candidate keys w).2.1 (candidate keys w).2.2.1 (candidate keys w).2.2.2.1 (candidate keys w).2.2.2.2 fun _ => .stop false) (fun w => ⟨hc keys w, 0, rfl, fun _ => trivial⟩) _ _
  have h2 := C120_ccp_forgery m _ 1 n' hn' l1 false
  refine h2.trans (le_of_eq ?_)
  push_cast
  ring

end

/-! ## Without an attacker -/

/-- **The keys come back.** For each two AEADs of the crate, all master and data keys, and nonces of 12 bytes: every key is wrapped, in a string of its length and a tag of 16 bytes; unwrapping gives the key, and it decrypts what was encrypted under it. -/
theorem C162_round_trip (p p' : AeadCipher × Nat) (hp : p ∈ sessionAeads) (hp' : p' ∈ sessionAeads) (m : Mode) (master : Str p.2) (nonce data : Fin u → Bytes) (keys : Fin u → Str p'.2)
    (hn : ∀ i, (nonce i).length = 12) (hd : ∀ i, (data i).length < 2 ^ 61) (i : Fin u) (msg iv info buffer : Bytes) (hiv : iv.length = 12) (hi : info.length < 2 ^ 61) (hm : msg.length ≤ 2 ^ 36 - 64)
    (hb : msg.length = buffer.length) :
    ∃ ct t ct' t', wraps (withKeys (aeadScheme p.1 m) p.2) master nonce data (strings keys) i = some (ct, t) ∧ ct.length = p'.2 ∧ t.length = 16 ∧
      (withKeys (aeadScheme p.1 m) p.2).dec master ct (nonce i) (data i) t (zeros p'.2) = some ((keys i).1, true) ∧
      (aeadScheme p'.1 m).enc (keys i).1 msg iv info buffer = some (ct', t') ∧ (aeadScheme p'.1 m).dec (keys i).1 ct' iv info t' buffer = some (msg, true) := by
  obtain ⟨s, hs⟩ := new_of_length p hp master.1 master.2
  obtain ⟨s', hs'⟩ := new_of_length p' hp' (keys i).1 (keys i).2
  have c := C99_contract p.1 (mem_aeads p hp) master.1 s hs
  have c' := C99_contract p'.1 (mem_aeads p' hp') (keys i).1 s' hs'
  have hL : (keys i).1.length ≤ 32 := by
    rw [(keys i).2]
    simp only [sessionAeads, List.mem_cons, List.not_mem_nil, or_false] at hp'
    rcases hp' with rfl | rfl | rfl | rfl <;> simp
  obtain ⟨ct, t, h⟩ := aead_encrypts p.1 (mem_aeads p hp) master.1 s hs (keys i).1 (nonce i) (data i) (zeros (keys i).1.length) (hn i) (by omega) (hd i) (by simp [zeros])
  obtain ⟨l1, l2⟩ := c.lengths _ _ _ _ _ _ _ (h m)
  obtain ⟨ct', t', h'⟩ := aead_encrypts p'.1 (mem_aeads p' hp') (keys i).1 s' hs' msg iv info buffer hiv hm hi hb
  refine ⟨ct, t, ct', t', ?_, l1.trans (keys i).2, l2, ?_, ?_, ?_⟩
  · show (p.1.new master.1).bind _ = _
    rw [hs]
    exact h m
  · show (p.1.new master.1).bind _ = _
    rw [hs]
    exact c.roundtrip m _ _ _ _ _ _ (h m) _ (by simp [zeros, (keys i).2])
  · show (p'.1.new (keys i).1).bind _ = _
    rw [hs']
    exact h' m
  · show (p'.1.new (keys i).1).bind _ = _
    rw [hs']
    exact c'.roundtrip m _ _ _ _ _ _ (h' m) buffer hb.symm

/-! ## Concrete cases -/

/-- Nonces that count. -/
def counter (i : Fin 2) : Bytes := toBE 12 i.val

theorem counter_injective : Function.Injective counter := by decide

/-- The attacker of C121, which ignores the wrapped keys. -/
def ignore (_ : Wraps 2) : MultiGame.Adversary 2 := .encrypt 0 (zeros 12) [] [0, 0] [1, 1] (zeros 2) fun r => .decrypt 1 (zeros 12) [] [] (zeros 16) [] fun _ => .stop r.isSome

theorem ignore_within (w : Wraps 2) : MultiGame.Within authCount 2 (ignore w) 1 := ⟨by decide, fun _ => ⟨by decide, 0, rfl, fun _ => trivial⟩⟩
theorem ignore_costs (w : Wraps 2) : MultiGame.Costs gcmCost (ignore w) 5 ∧ MultiGame.CostsEach gcmCost 3 (ignore w) (fun _ => 0) :=
  ⟨⟨2, by decide, fun _ => ⟨0, by decide, fun _ => trivial⟩⟩, by decide, fun _ => ⟨by decide, fun _ => trivial⟩⟩

/-- An attacker that uses what it sees: it presents user 0's wrapped key as user 0's data, with the nonce of the wrap. -/
def present (w : Wraps 2) : MultiGame.Adversary 2 := match w 0 with
  | none => .stop false
  | some (ct, t) => .decrypt 0 (counter 0) [] (ct.take 32) t (zeros 32) fun r => .stop (r.isSome && (r.map Prod.snd == some true))

theorem present_within (w : Wraps 2) : MultiGame.Within authCount 3 (present w) 1 := by
  unfold present
  split
  · trivial
  · next ct t _ =>
    refine ⟨?_, 0, rfl, fun _ => trivial⟩
    have h : (ct.take 32).length ≤ 32 := by simp
    show (0 + 15) / 16 + (_ + 15) / 16 + 1 ≤ 3
    omega

example (m : Mode) := C162_chacha_forgery m counter (fun _ => [7]) present 1 3 4 counter_injective (fun _ => by decide) (by norm_num) (by norm_num) present_within true
example (m : Mode) := C162_chacha_confidentiality m counter (fun _ => [7]) present 1 3 4 counter_injective (fun _ => by decide) (by norm_num) (by norm_num) present_within
example (m : Mode) := C162_aes_forgery m counter (fun _ => [7]) ignore 1 2 4 counter_injective .aes256 .aes128 5 3 (fun _ => by decide) (by norm_num) (by norm_num) ignore_within (by norm_num)
  (fun w => (ignore_costs w).1) (fun w => (ignore_costs w).2) false
example (m : Mode) := C162_aes_confidentiality m counter (fun _ => [7]) ignore 1 2 4 counter_injective .aes256 .aes128 5 3 (fun _ => by decide) (by norm_num) (by norm_num) ignore_within (by norm_num)
  (fun w => (ignore_costs w).1) (fun w => (ignore_costs w).2)

/-- A wrap with other data is presented. -/
def otherData (_ : Fin 2 → Str 32) (w : Wraps 2) : Bytes × Bytes × Bytes × Bytes × Bytes := match w 0 with
  | none => (counter 0, [8], [], [], [])
  | some (ct, t) => (counter 0, [8], ct.take 32, t, zeros 32)

theorem otherData_short (keys : Fin 2 → Str 32) (w : Wraps 2) : authCount (otherData keys w).2.1.length (otherData keys w).2.2.1.length ≤ 4 := by
  unfold otherData
  split
  · decide
  · next ct t _ =>
    have h : (ct.take 32).length ≤ 32 := by simp
    show (1 + 15) / 16 + ((ct.take 32).length + 15) / 16 + 1 ≤ 4
    omega

example (m : Mode) := C162_aes_unwrap m counter (fun _ => [7]) 4 counter_injective .aes192 (L := 32) (fun _ => by decide) (by norm_num) otherData otherData_short
example (m : Mode) := C162_chacha_unwrap m counter (fun _ => [7]) 4 counter_injective (L := 32) (fun _ => by decide) (by norm_num) otherData otherData_short
example (m : Mode) (master : Str 16) (keys : Fin 2 → Str 32) := C162_round_trip (gcmAead Aes.Aes128, 16) (ccpAead, 32) (by simp [sessionAeads]) (by simp [sessionAeads]) m master counter (fun _ => [7]) keys
  (by decide) (by simp) 1 [1, 2, 3] (zeros 12) [] (zeros 3) (by simp [zeros]) (by simp) (by simp) (by simp [zeros])

end CryptoPure.Props.Envelope
