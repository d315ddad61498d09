import Verif.Spec.Login
import Verif.Proofs.Layers
import Verif.Props.HmacPrf
import Verif.Props.Ed25519Oracle
import Verif.Props.Cases

/-! # C163: logging in with a shared key and HMAC -/

namespace CryptoPure.Props.Login
open CryptoPure.Model CryptoPure.Props CryptoPure.Login MacGame
open Game (prob prob_mono prob_or)
open CryptoPure.Layers (exists_key_le swap_prob)
open CryptoPure.Props.Cases (inner_bound)

/-- Strings of a given length. -/
abbrev Str (n : Nat) := {k : Bytes // k.length = n}

instance (n : Nat) : Nonempty (Str n) := ⟨⟨zeros n, by simp [zeros]⟩⟩

variable {w : Nat} {R T : Type}

/-- **The client that knows the key gets in**: the answer to each challenge is computed, has the length of the digest, and is accepted; no other answer is. -/
theorem C163_client (v : Variant) (m : Mode) (key c : Bytes) (hk : key.length < 2 ^ 61) (hc : v.block + c.length < 2 ^ 61) :
    ∃ answer, Hmac.wrapper v.code m key c = some answer ∧ answer.length = v.size ∧ ∀ t, Hmac.verify v.code m key c t = some (decide (answer = t)) := by
  refine ⟨Spec.hmac v.fips v.block key c, C06_hmac_rfc2104 v m key c hk hc, by rw [hmac_inputs, fips_length], fun t => ?_⟩
  rw [Proofs.hmac_verify_spec v.lawful m key c t hk (by rw [v.blockSize_eq]; exact hc), v.blockSize_eq]

theorem andThen_forges (W : World w) (X : Attacker w R) (f : R → Attacker w T) (log : List Bytes) (r : R) (hr : play W X = some r)
    (h : forges W (f r) ((tagged W X).reverse ++ log)) : forges W (andThen X f) log := by
  induction X generalizing log with
  | stop r' =>
    obtain rfl := Option.some.inj hr
    exact h
  | compress H b next ih => exact ih _ log hr h
  | tag M next ih =>
    rw [play] at hr
    rw [tagged] at h
    rw [andThen, forges]
    cases e : W.tag M with
    | none => rw [e] at hr; cases hr
    | some t =>
      rw [e] at hr h
      refine ih t (M :: log) hr ?_
      rw [List.reverse_cons, List.append_assoc] at h
      exact h
  | verify M t next ih =>
    rw [play] at hr
    rw [tagged] at h
    rw [andThen, forges]
    cases e : W.verify M t with
    | none => rw [e] at hr; cases hr
    | some b =>
      rw [e] at hr h
      exact Or.inr (ih b log hr h)

theorem uses_mono (X : Attacker w R) (q t q' t' : Nat) (h : X.Uses q t) : X.Uses (q + q') (t + t') := by
  induction X generalizing q t with
  | stop r => trivial
  | compress H b next ih => exact fun y => ih y q t (h y)
  | tag M next ih =>
    obtain ⟨q, rfl, h⟩ := h
    exact ⟨q + q', by omega, fun y => ih y q t (h y)⟩
  | verify M s next ih =>
    obtain ⟨q, rfl, t, rfl, h⟩ := h
    exact ⟨q + q', by omega, t + t', by omega, fun y => ih y q t (h y)⟩

theorem andThen_uses (X : Attacker w R) (f : R → Attacker w T) (q t q' t' : Nat) (h : X.Uses q t) (hf : Ends (fun r => (f r).Uses q' t') X) :
    (andThen X f).Uses (q + q') (t + t') := by
  induction X generalizing q t with
  | stop r =>
    rw [Nat.add_comm q, Nat.add_comm t]
    exact uses_mono _ _ _ _ _ hf
  | compress H b next ih => exact fun y => ih y q t (h y) (hf y)
  | tag M next ih =>
    obtain ⟨q, rfl, h⟩ := h
    exact ⟨q + q', by omega, fun y => ih y q t (h y) (hf y)⟩
  | verify M s next ih =>
    obtain ⟨q, rfl, t, rfl, h⟩ := h
    exact ⟨q + q', by omega, t + t', by omega, fun y => ih y q t (h y) (hf y)⟩

theorem andThen_short {N : Nat} (X : Attacker w R) (f : R → Attacker w T) (h : X.Short N) (hf : Ends (fun r => (f r).Short N) X) : (andThen X f).Short N := by
  induction X with
  | stop r => exact hf
  | compress H b next ih => exact fun y => ih y (h y) (hf y)
  | tag M next ih => exact ⟨h.1, fun y => ih y (h.2 y) (hf y)⟩
  | verify M s next ih => exact ⟨h.1, fun y => ih y (h.2 y) (hf y)⟩

theorem ends_mono {P Q : R → Prop} (X : Attacker w R) (hPQ : ∀ r, P r → Q r) (h : Ends P X) : Ends Q X := by
  induction X with
  | stop r => exact hPQ r h
  | compress H b next ih => exact fun y => ih y (h y)
  | tag M next ih => exact fun y => ih y (h y)
  | verify M s next ih => exact fun y => ih y (h y)

theorem ends_all {P : R → Prop} (X : Attacker w R) (hP : ∀ r, P r) : Ends P X := by
  induction X with
  | stop r => exact hP r
  | compress H b next ih => exact fun y => ih y
  | tag M next ih => exact fun y => ih y
  | verify M s next ih => exact fun y => ih y

theorem tagged_length (W : World w) (X : Attacker w R) (q t : Nat) (h : X.Uses q t) : (tagged W X).length ≤ q := by
  induction X generalizing q t with
  | stop r => simp [tagged]
  | compress H b next ih => exact ih _ q t (h _)
  | tag M next ih =>
    obtain ⟨q, rfl, h⟩ := h
    rw [tagged]
    split
    · simp
    · next y _ =>
      have := ih y q t (h y)
      simp only [List.length_cons]
      omega
  | verify M s next ih =>
    obtain ⟨q, rfl, t, rfl, h⟩ := h
    rw [tagged]
    split
    · simp
    · next b _ =>
      have := ih b q t (h b)
      omega

variable {n : Nat}

/-- Who logs in has had the challenge answered before it was drawn, or forges. -/
theorem logsIn_forges (W : World w) (X : Attacker w (Str n → Attacker w Bytes)) (c : Str n) (h : logsIn W X c) :
    c.1 ∈ tagged W X ∨ forges W (forgery X c) [] := by
  obtain ⟨second, answer, h1, h2, h3, h4⟩ := h
  by_cases hc : c.1 ∈ tagged W X
  · exact Or.inl hc
  refine Or.inr (andThen_forges W X _ [] second h1 (andThen_forges W (second c) _ _ answer h3 ?_))
  rw [forges]
  refine Or.inl ⟨?_, h4⟩
  simp only [List.append_nil, List.mem_append, List.mem_reverse, not_or]
  exact ⟨h2, hc⟩

/-- **Without the key nobody gets in.** Key and challenge are random. The attacker has at most `q` challenges of its choice answered or verified, and at most `t` verified, before the challenge is drawn, and at most `q'`
and `t'` after that, where the client does not answer this very challenge. It is let in with at most `q / 256 ^ n`, the chance to have had the challenge answered before, plus the chance to forge HMAC of the crate with
one more verified tag. -/
theorem C163_login (v : Variant) (m : Mode) (kl : Nat) (X : Attacker v.width (Str n → Attacker v.width Bytes)) (q t : Nat) (hq : X.Uses q t) :
    ∃ c : Str n, prob (fun p : Str kl × Str n => logsIn (crateWorld v m p.1.1) X p.2) ≤
      q / 256 ^ n + prob (fun key : Str kl => forges (crateWorld v m key.1) (forgery X c) []) := by
  obtain ⟨key, h1⟩ := exists_key_le fun p : Str n × Str kl => p.1.1 ∈ tagged (crateWorld v m p.2.1) X
  obtain ⟨c, h2⟩ := exists_key_le fun p : Str kl × Str n => forges (crateWorld v m p.1.1) (forgery X p.2) []
  refine ⟨c, ?_⟩
  have h3 : prob (fun y : Str n => y.1 ∈ tagged (crateWorld v m key.1) X) ≤ q / 256 ^ n := by
    refine (Ed25519.prob_mem_le n _).trans (div_le_div_of_nonneg_right ?_ (by positivity))
    exact_mod_cast tagged_length (crateWorld v m key.1) X q t hq
  rw [← swap_prob fun p : Str kl × Str n => p.2.1 ∈ tagged (crateWorld v m p.1.1) X] at h1
  have h4 := prob_mono fun p : Str kl × Str n => logsIn_forges (crateWorld v m p.1.1) X p.2
  have h5 := prob_or (fun p : Str kl × Str n => p.2.1 ∈ tagged (crateWorld v m p.1.1) X) fun p : Str kl × Str n => forges (crateWorld v m p.1.1) (forgery X p.2) []
  linarith

theorem forgery_limits {N : Nat} (X : Attacker w (Str n → Attacker w Bytes)) (q t q' t' : Nat) (hX : X.Short N) (hq : X.Uses q t) (hn : n ≤ N)
    (h' : Ends (fun second => ∀ c, (second c).Short N ∧ (second c).Uses q' t') X) (c : Str n) :
    (forgery X c).Short N ∧ (forgery X c).Uses (q + (q' + 1)) (t + (t' + 1)) := by
  constructor
  · exact andThen_short X _ hX (ends_mono X (fun r hr => andThen_short _ _ (hr c).1 (ends_all _ fun answer => ⟨by rw [c.2]; exact hn, fun _ => trivial⟩)) h')
  · exact andThen_uses X _ q t _ _ hq (ends_mono X (fun r hr => andThen_uses _ _ q' t' 1 1 (hr c).2 (ends_all _ fun answer => ⟨0, rfl, 0, rfl, fun _ => trivial⟩)) h')

/-- **Without the key nobody gets in, if the SHA-2 compression function is pseudorandom.** As above, with the bound of C122 for the attack on HMAC. The attacker has at most `q` texts of at most `N` bytes answered or verified,
at most `t` of them verified, before the challenge is drawn, and at most `q'` and `t'` after that. -/
theorem C163_login_bound (v : Variant) (m : Mode) (kl N : Nat) (hk : kl ≤ v.block) (hN : v.block + N < 2 ^ 61) (hn : n ≤ N) (X : Attacker v.width (Str n → Attacker v.width Bytes))
    (q t q' t' : Nat) (hX : X.Short N) (hq : X.Uses q t) (h' : Ends (fun second => ∀ c, (second c).Short N ∧ (second c).Uses q' t') X) (δ : ℚ) (hδ0 : 0 ≤ δ)
    (hδ : ∀ M M' : Bytes, M.length ≤ N → M'.length ≤ N → M ≠ M' → innerCollision v M M' ≤ δ) :
    ∃ c : Str n, prob (fun p : Str kl × Str n => logsIn (crateWorld v m p.1.1) X p.2) ≤
      q / 256 ^ n + (((t + (t' + 1) : Nat) : ℚ) / 256 ^ v.size + (keyAdvantage v kl (forger (forgery X c) []) + outerAdvantage v (forger (forgery X c) []) +
        ((q + (q' + 1) : Nat) : ℚ) * ((q + (q' + 1) : Nat) - 1) / 2 * δ)) := by
  obtain ⟨c, h⟩ := C163_login v m kl X q t hq
  obtain ⟨s, z⟩ := forgery_limits X q t q' t' hX hq hn h' c
  exact ⟨c, h.trans (add_le_add_right (C122_unforgeable v m kl N hk hN (forgery X c) _ _ s z δ hδ0 hδ) _)⟩

/-! ## Concrete cases -/

example (m : Mode) (key c : Str 32) := C163_client .sha256 m key.1 c.1 (by rw [key.2]; decide) (by rw [c.2]; decide)

/-- The attacker has one challenge answered, and tries this answer for the next one. -/
def replay : Attacker Variant.sha256.width (Str 16 → Attacker Variant.sha256.width Bytes) := .tag (zeros 16) fun t => .stop fun _ => .stop t

theorem replay_limits : replay.Short 16 ∧ replay.Uses 1 0 ∧ Ends (fun second => ∀ c, (second c).Short 16 ∧ (second c).Uses 0 0) replay :=
  ⟨⟨by simp [zeros], fun _ => trivial⟩, ⟨0, rfl, fun _ => trivial⟩, fun _ _ => ⟨trivial, trivial⟩⟩

example (m : Mode) := C163_login_bound .sha256 m 32 16 (by decide) (by decide) (le_refl 16) replay 1 0 0 0 replay_limits.1 replay_limits.2.1 replay_limits.2.2 _ (by positivity) (inner_bound 16 (by decide))

/-- It succeeds if the challenge is repeated. -/
example (m : Mode) (key : Str 32) : logsIn (crateWorld .sha256 m key.1) replay ⟨zeros 16, by simp [zeros]⟩ := by
  obtain ⟨t, h1, -, h2⟩ := C163_client .sha256 m key.1 (zeros 16) (by rw [key.2]; decide) (by simp [zeros, Variant.block])
  have e : (crateWorld .sha256 m key.1).tag (zeros 16) = some t := h1
  refine ⟨fun _ => .stop t, t, ?_, by simp [tagged], rfl, ?_⟩
  · unfold replay
    rw [play.eq_def]
    dsimp only
    rw [e]
    rfl
  · exact (h2 t).trans (by simp)

end CryptoPure.Props.Login
