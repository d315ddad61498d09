import Verif.Props.SessionKeys
import Verif.Props.HmacPrf
import Verif.Props.RandomNonce

/-! # C148: shortened tags of HMAC

Many protocols send only the first bytes of a tag. The crate's `verify` insists on whole tags (C08), so the application computes the tag with HMAC of the crate and compares its
first `L` bytes with what it got. -/

namespace CryptoPure.Props.TruncatedTag
open CryptoPure.Model Spec.Sha2 Proofs MacGame HmacTests Distinguisher
open Game (prob prob_mono)

/-- The attacker's world: an application that works with the first `L` bytes of the tags of HMAC of the crate. -/
def shortWorld (v : Variant) (m : Mode) (L : Nat) (key : Bytes) : World v.width where
  compress := v.fipsCompress
  tag M := (Hmac.wrapper v.code m key M).map fun d => d.take L
  verify M t := (Hmac.wrapper v.code m key M).map fun d => decide (t = d.take L)

variable {w N : Nat} {R : Type}

/-- The attacker on HMAC itself: it asks for whole tags, and runs the attack on their first bytes. -/
def shorten (L : Nat) : Attacker w R → Attacker w R
  | .stop r => .stop r
  | .compress H b next => .compress H b fun y => shorten L (next y)
  | .tag M next => .tag M fun d => shorten L (next (d.take L))
  | .verify M t next => .tag M fun d => shorten L (next (decide (t = d.take L)))

theorem shorten_play (v : Variant) (m : Mode) (L : Nat) (key : Bytes) (X : Attacker v.width R) :
    play (crateWorld v m key) (shorten L X) = play (shortWorld v m L key) X := by
  induction X with
  | stop r => rfl
  | compress H b next ih => exact ih _
  | tag M next ih =>
    unfold shorten play
    rw [show (crateWorld v m key).tag M = Hmac.wrapper v.code m key M from rfl,
      show (shortWorld v m L key).tag M = (Hmac.wrapper v.code m key M).map fun d => d.take L from rfl]
    cases Hmac.wrapper v.code m key M with
    | none => rfl
    | some d => exact ih _
  | verify M t next ih =>
    unfold shorten play
    rw [show (crateWorld v m key).tag M = Hmac.wrapper v.code m key M from rfl,
      show (shortWorld v m L key).verify M t = (Hmac.wrapper v.code m key M).map fun d => decide (t = d.take L) from rfl]
    cases Hmac.wrapper v.code m key M with
    | none => rfl
    | some d => exact ih _

/-- The first bytes of the values of a function. -/
def cut {n : Nat} (L : Nat) (h : L ≤ n) (G : Keyed N n) : Keyed N L := fun x => ⟨(G x).1.take L, by rw [List.length_take, (G x).2]; omega⟩

theorem cut_ask {n L : Nat} (h : L ≤ n) (G : Keyed N n) (M : Bytes) : (cut L h G).ask M = (G.ask M).take L := by
  unfold Keyed.ask cut
  split
  · rfl
  · unfold zeros
    rw [List.take_replicate, Nat.min_eq_left h]

theorem shorten_ideal {n L : Nat} (h : L ≤ n) (f : Oct w → Bytes → Oct w) (G : Keyed N n) (X : Attacker w R) :
    play (idealWorld f G) (shorten L X) = play (idealWorld f (cut L h G)) X := by
  induction X with
  | stop r => rfl
  | compress H b next ih => exact ih _
  | tag M next ih =>
    show play (idealWorld f G) (shorten L (next ((G.ask M).take L))) = play (idealWorld f (cut L h G)) (next ((cut L h G).ask M))
    rw [cut_ask, ih]
  | verify M t next ih =>
    show play (idealWorld f G) (shorten L (next (decide (t = (G.ask M).take L)))) = play (idealWorld f (cut L h G)) (next (decide ((cut L h G).ask M = t)))
    rw [cut_ask, ih]
    congr 2
    simp only [eq_comm]

theorem prob_cut {n L : Nat} (h : L ≤ n) (P : Keyed N L → Prop) : prob (fun G : Keyed N n => P (cut L h G)) = prob P :=
  prob_takes h P

theorem shorten_short (L : Nat) (X : Attacker w R) (h : X.Short N) : (shorten L X).Short N := by
  induction X with
  | stop r => trivial
  | compress H b next ih => exact fun y => ih y (h y)
  | tag M next ih => exact ⟨h.1, fun t => ih _ (h.2 _)⟩
  | verify M t next ih => exact ⟨h.1, fun t => ih _ (h.2 _)⟩

theorem shorten_uses (L : Nat) (X : Attacker w R) (q t : Nat) (h : X.Uses q t) : (shorten L X).Uses q 0 := by
  induction X generalizing q t with
  | stop r => trivial
  | compress H b next ih => exact fun y => ih y _ _ (h y)
  | tag M next ih =>
    obtain ⟨q', rfl, h2⟩ := h
    exact ⟨q', rfl, fun d => ih _ _ _ (h2 _)⟩
  | verify M t next ih =>
    obtain ⟨q', rfl, t', rfl, h2⟩ := h
    exact ⟨q', rfl, fun d => ih _ _ _ (h2 _)⟩

/-! ## The theorems -/

/-- **Shortened tags of HMAC are pseudorandom**: an attacker with `q` texts tells the first `L` bytes of the tags of HMAC of the crate from a random function with values of `L`
bytes with at most the bound of C122 for the attack on HMAC that asks for the whole tags. -/
theorem C148_prf (v : Variant) (m : Mode) (kl N L : Nat) (hk : kl ≤ v.block) (hN : v.block + N < 2 ^ 61) (hL : L ≤ v.size) (X : Attacker v.width Bool) (q t : Nat)
    (hX : X.Short N) (hq : X.Uses q t) (δ : ℚ) (hδ0 : 0 ≤ δ)
    (hδ : ∀ M M' : Bytes, M.length ≤ N → M'.length ≤ N → M ≠ M' → innerCollision v M M' ≤ δ) :
    |prob (fun k : {k : Bytes // k.length = kl} => play (shortWorld v m L k.1) X = some true) -
      prob (fun G : Keyed N L => play (idealWorld v.fipsCompress G) X = some true)| ≤
    keyAdvantage v kl (shorten L X) + outerAdvantage v (shorten L X) + q * (q - 1) / 2 * δ := by
  have h := C122_prf v m kl N hk hN (shorten L X) q 0 (shorten_short L X hX) (shorten_uses L X q t hq) δ hδ0 hδ
  rw [hmac_prob_congr fun k : {k : Bytes // k.length = kl} => by rw [shorten_play],
    hmac_prob_congr fun G : Keyed N v.size => by rw [shorten_ideal hL], prob_cut hL fun G : Keyed N L => play (idealWorld v.fipsCompress G) X = some true] at h
  exact h

/-- **Shortened tags of HMAC cannot be forged**: an attacker that has `t` shortened tags verified gets one accepted for a text whose tag it has not asked for with probability
at most `t / 256 ^ L`, plus the bound of C122 for the attack on HMAC that asks for whole tags and reports the forgery. -/
theorem C148_unforgeable (v : Variant) (m : Mode) (kl N L : Nat) (hk : kl ≤ v.block) (hN : v.block + N < 2 ^ 61) (hL : L ≤ v.size) {R : Type} (X : Attacker v.width R)
    (q t : Nat) (hX : X.Short N) (hq : X.Uses q t) (δ : ℚ) (hδ0 : 0 ≤ δ)
    (hδ : ∀ M M' : Bytes, M.length ≤ N → M'.length ≤ N → M ≠ M' → innerCollision v M M' ≤ δ) :
    prob (fun k : {k : Bytes // k.length = kl} => forges (shortWorld v m L k.1) X []) ≤
    t / 256 ^ L + (keyAdvantage v kl (shorten L (forger X [])) + outerAdvantage v (shorten L (forger X [])) + q * (q - 1) / 2 * δ) := by
  have h := (abs_le.mp (C148_prf v m kl N L hk hN hL (forger X []) q t (forger_short X hX []) (forger_uses X q t hq []) δ hδ0 hδ)).2
  rw [hmac_prob_congr fun k : {k : Bytes // k.length = kl} => forger_play (shortWorld v m L k.1) X [],
    hmac_prob_congr fun G : Keyed N L => forger_play (idealWorld v.fipsCompress G) X []] at h
  have h2 := ideal_forges_short (n := L) v.fipsCompress X q t hX hq [] Set.univ (fun _ _ _ _ _ => Set.mem_univ _)
  rw [HmacIdeal.cprob_univ] at h2
  have : (t : ℚ) * (1 / 256 ^ L) = t / 256 ^ L := by ring
  linarith

/-- **Shorter tags are easier to guess**: whatever the key and the text, a random guess of `L` bytes is accepted with probability exactly `1 / 256 ^ L`. -/
theorem C148_guess (v : Variant) (m : Mode) (L : Nat) (hL : L ≤ v.size) (key M : Bytes) (hk : key.length < 2 ^ 61) (hM : v.block + M.length < 2 ^ 61) :
    prob (fun t : {t : Bytes // t.length = L} => (shortWorld v m L key).verify M t.1 = some true) = 1 / 256 ^ L := by
  have hw : Hmac.wrapper v.code m key M = some (Spec.hmac v.fips v.block key M) := C06_hmac_rfc2104 v m key M hk hM
  have hl : (Spec.hmac v.fips v.block key M).length = v.size := by
    have := hmac_length v.lawful key M
    rw [v.digestSize_eq, v.blockSize_eq] at this
    exact this
  obtain ⟨x, hx⟩ : ∃ x : {t : Bytes // t.length = L}, x.1 = (Spec.hmac v.fips v.block key M).take L := ⟨⟨_, by rw [List.length_take, hl]; omega⟩, rfl⟩
  have e : ∀ t : {t : Bytes // t.length = L}, (shortWorld v m L key).verify M t.1 = some true ↔ t = x := by
    intro t
    show (Hmac.wrapper v.code m key M).map (fun d => decide (t.1 = d.take L)) = some true ↔ _
    rw [hw, Option.map_some, Option.some.injEq, decide_eq_true_eq, Subtype.ext_iff, hx]
  refine (hmac_prob_congr e).trans ((CryptoPure.Props.prob_point x).trans ?_)
  rw [card_digest]
  push_cast
  rfl

/-! ## A concrete case -/

/-- An attacker that asks for the tag of a text and tries it, with another bit, for another text. -/
def tagFlipper (w : Nat) : Attacker w Bool := .tag [1, 2, 3] fun t => .verify [1, 2, 4] (t.map fun x => x ^^^ 1) fun ok => .stop ok

example (m : Mode) : prob (fun k : {k : Bytes // k.length = 32} => forges (shortWorld .sha256 m 16 k.1) (tagFlipper 32) []) ≤
    (1 : Nat) / 256 ^ 16 + (keyAdvantage .sha256 32 (shorten 16 (forger (tagFlipper 32) [])) + outerAdvantage .sha256 (shorten 16 (forger (tagFlipper 32) [])) +
      (2 : Nat) * ((2 : Nat) - 1) / 2 * ((Variant.sha256.blocks 3 + 1) * 1 + 1 / 256 ^ 32)) :=
  C148_unforgeable .sha256 m 32 3 16 (by decide) (by decide) (by decide) (tagFlipper 32) 2 1 ⟨by decide, fun _ => ⟨by decide, fun _ => trivial⟩⟩
    ⟨1, rfl, fun _ => ⟨0, rfl, 0, rfl, fun _ => trivial⟩⟩ _ (by positivity)
    (C122_inner .sha256 (Or.inl rfl) 3 (by decide) 1 zero_le_one fun _ _ _ _ D _ => chainAdvantage_le_one .sha256 D)

example (m : Mode) : prob (fun t : {t : Bytes // t.length = 1} => (shortWorld .sha512 m 1 [1, 2]).verify [3] t.1 = some true) = 1 / 256 ^ 1 :=
  C148_guess .sha512 m 1 (by decide) [1, 2] [3] (by decide) (by decide)

end CryptoPure.Props.TruncatedTag
