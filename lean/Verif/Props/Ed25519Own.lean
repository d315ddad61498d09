import Verif.Spec.OwnGame
import Verif.Props.Ed25519Oracle
import Verif.Props.Ed25519Bind
import Verif.Proofs.HmacIdeal

/-! # C116: an Ed25519 signature belongs to one key and one message -/

namespace CryptoPure.Props.Ed25519
open Spec.Ed25519 Model.EdWith EdGame CryptoPure.Ed Game OwnGame Switch Proofs.HmacIdeal

/-! ## What two owners would mean -/

theorem eq_of_smul_eq {A : Pt25519} (h8 : 8 • A ≠ 0) {k k' : Nat} (h : (k % L) • A = (k' % L) • A) : k % L = k' % L := by
  have h6 : (((k % L : Nat) : Int) - ((k' % L : Nat) : Int)) • A = 0 := by
    rw [sub_smul, natCast_zsmul, natCast_zsmul, h, sub_self]
  have h7 := L_dvd_of_smul h8 h6
  have hL : 0 < L := L_pos
  have b1 := Nat.mod_lt k hL
  have b2 := Nat.mod_lt k' hL
  have := Int.eq_zero_of_abs_lt_dvd h7 (by rw [abs_lt]; constructor <;> omega)
  omega

/-- If one signature is accepted under two keys, or for two messages, the two hashes times the two keys are the same point. -/
theorem two_owners (m : Mode) (H : Bytes → Bytes) (hH : ∀ x, (H x).length = 64) (M M' sig pk pk' : Bytes) (hpk : pk.length = 32)
    (hpk' : pk'.length = 32) (h : verifyWith m H M sig pk = some true) (h' : verifyWith m H M' sig pk' = some true) :
    sig.length = 64 ∧ ∃ A A', DecodesLax pk A ∧ DecodesLax pk' A' ∧
      smul (leNat (H (sig.take 32 ++ pk ++ M)) % L) A = smul (leNat (H (sig.take 32 ++ pk' ++ M')) % L) A' := by
  obtain ⟨b, e, hb⟩ := verifyWith_spec m (M := M) (sig := sig) hpk H hH
  obtain ⟨b', e', hb'⟩ := verifyWith_spec m (M := M') (sig := sig) hpk' H hH
  rw [h] at e
  rw [h'] at e'
  cases e
  cases e'
  obtain ⟨h1, -, A, dA, eA⟩ := hb.mp rfl
  obtain ⟨-, -, A', dA', eA'⟩ := hb'.mp rfl
  refine ⟨h1, A, A', dA, dA', ?_⟩
  generalize leNat (H (sig.take 32 ++ pk ++ M)) % L = k at *
  generalize leNat (H (sig.take 32 ++ pk' ++ M')) % L = k' at *
  generalize leNat (sig.drop 32) = S at *
  have key : ∀ (k : Nat) (A : Point) (hA : onCurve A), add (smul S B) (neg (smul k A)) = ((S • G + -(k • ⟨A, hA⟩) : Pt25519) : Point) := by
    intro k A hA
    rw [coe_add, coe_neg, coe_smulG, coe_smul]
  rw [key k A dA.1] at eA
  rw [key k' A' dA'.1] at eA'
  have h2 := encode_inj (Subtype.prop _) (Subtype.prop _) (eA.trans eA'.symm)
  have h3 := neg_injective (add_left_cancel (Subtype.ext h2))
  have h4 := congrArg Subtype.val h3
  rwa [coe_smul, coe_smul] at h4

/-- C116, for the code of the crate: one signature accepted under two keys, or for two messages, means that the two hashes times the two keys are the same
point. In particular, two keys of `gen_pk` with secret scalars `a` and `a'` satisfy `k a = k' a'` modulo `L`. -/
theorem C116_two_owners (m : Mode) (M M' sig pk pk' : Bytes) (hpk : pk.length = 32) (hpk' : pk'.length = 32)
    (hM : M.length + 64 < 2 ^ 61) (hM' : M'.length + 64 < 2 ^ 61)
    (h : Model.Ed25519.verify m M sig pk = some true) (h' : Model.Ed25519.verify m M' sig pk' = some true) :
    ∃ A A', DecodesLax pk A ∧ DecodesLax pk' A' ∧
      smul (leNat (Spec.Sha2.sha512 (sig.take 32 ++ pk ++ M)) % L) A = smul (leNat (Spec.Sha2.sha512 (sig.take 32 ++ pk' ++ M')) % L) A' := by
  rw [C102_verify_code m M sig pk hpk hM] at h
  rw [C102_verify_code m M' sig pk' hpk' hM'] at h'
  exact (two_owners m _ sha512_length M M' sig pk pk' hpk hpk' h h').2

/-! ## Searching in a random function -/

section Search
variable {D C : Type}

/-- At a new argument the value satisfies `P`, or `Q` with an earlier argument and value. -/
def Finds (P : D → C → Prop) (Q : D → C → D → C → Prop) (h : D → C) : Eval D C → List (D × C) → Prop
  | .stop, _ => False
  | .ask x next, known => ((∀ p ∈ known, p.1 ≠ x) ∧ (P x (h x) ∨ ∃ p ∈ known, Q x (h x) p.1 p.2)) ∨
      Finds P Q h (next (h x)) ((x, h x) :: known)

theorem not_finds {P : D → C → Prop} {Q : D → C → D → C → Prop} {h : D → C} (t : Eval D C) (known : List (D × C))
    (hb : ¬ Finds P Q h t known) :
    (∀ x ∈ t.args h, (∀ p ∈ known, p.1 ≠ x) → ¬ P x (h x) ∧ ∀ p ∈ known, ¬ Q x (h x) p.1 p.2) ∧
    ∀ x ∈ t.args h, ∀ y ∈ t.args h, x ≠ y → (∀ p ∈ known, p.1 ≠ x) → (∀ p ∈ known, p.1 ≠ y) →
      ¬ (Q x (h x) y (h y) ∧ Q y (h y) x (h x)) := by
  induction t generalizing known with
  | stop => simp [Eval.args]
  | ask z next ih =>
    unfold Finds at hb
    push Not at hb
    obtain ⟨h1, h2⟩ := hb
    obtain ⟨i1, i2⟩ := ih _ _ h2
    have hmem : ∀ x ∈ (Eval.ask z next).args h, x ≠ z → x ∈ (next (h z)).args h := by
      intro x hx hz
      rcases List.mem_cons.mp hx with h | h
      · exact absurd h hz
      · exact h
    have hfr : ∀ x, x ≠ z → (∀ p ∈ known, p.1 ≠ x) → ∀ p ∈ (z, h z) :: known, p.1 ≠ x := by
      intro x hz hk p hp
      rcases List.mem_cons.mp hp with rfl | hp
      · exact hz.symm
      · exact hk p hp
    refine ⟨fun x hx hk => ?_, fun x hx y hy hxy hkx hky => ?_⟩
    · by_cases hz : x = z
      · subst hz
        exact ⟨(h1 hk).1, fun p hp => (h1 hk).2 p hp⟩
      · obtain ⟨j1, j2⟩ := i1 x (hmem x hx hz) (hfr x hz hk)
        exact ⟨j1, fun p hp => j2 p (List.mem_cons_of_mem _ hp)⟩
    · by_cases hxz : x = z
      · subst hxz
        have hyz : y ≠ x := hxy.symm
        have := (i1 y (hmem y hy hyz) (hfr y hyz hky)).2 (x, h x) (List.mem_cons_self ..)
        exact fun hq => this hq.2
      · by_cases hyz : y = z
        · subst hyz
          have := (i1 x (hmem x hx hxz) (hfr x hxz hkx)).2 (y, h y) (List.mem_cons_self ..)
          exact fun hq => this hq.1
        · exact i2 x (hmem x hx hxz) y (hmem y hy hyz) hxy (hfr x hxz hkx) (hfr y hyz hky)

theorem finds_le [DecidableEq D] [Finite D] [Finite C] [Nonempty C] (P : D → C → Prop) (Q : D → C → D → C → Prop) (ε : ℚ) (hε : 0 ≤ ε)
    (hP : ∀ x, prob (P x) ≤ ε) (hQ : ∀ x z c, prob (fun y => Q x y z c) ≤ ε) (t : Eval D C) (n : Nat) (ht : t.Within n)
    (known : List (D × C)) (S : Set (D → C)) (hS : ∀ F ∈ S, ∀ x, (∀ p ∈ known, p.1 ≠ x) → ∀ y, Function.update F x y ∈ S) :
    cprob S (fun h => Finds P Q h t known) ≤ (n * (2 * known.length + n + 1) / 2) * ε := by
  induction t generalizing n known S with
  | stop =>
    have : cprob S (fun h => Finds P Q h (Eval.stop : Eval D C) known) = 0 := by
      unfold cprob Finds
      simp
    rw [this]; positivity
  | ask x next ih =>
    obtain ⟨n, rfl, hn⟩ := ht
    refine le_trans (cprob_or _ _ _) ?_
    have h0 : ∀ l : List (D × C), prob (fun y => ∃ p ∈ l, Q x y p.1 p.2) ≤ l.length * ε := by
      intro l
      induction l with
      | nil => simp [prob]
      | cons p l ihl =>
        have h1 : prob (fun y => ∃ r ∈ p :: l, Q x y r.1 r.2) ≤ prob (fun y => Q x y p.1 p.2) + prob (fun y => ∃ r ∈ l, Q x y r.1 r.2) := by
          refine le_trans (prob_mono fun y hy => ?_) (prob_or _ _)
          obtain ⟨r, hr, hy⟩ := hy
          rcases List.mem_cons.mp hr with rfl | hr
          · exact Or.inl hy
          · exact Or.inr ⟨r, hr, hy⟩
        have := hQ x p.1 p.2
        rw [List.length_cons]
        push_cast
        linarith
    have h1 : cprob S (fun h => (∀ p ∈ known, p.1 ≠ x) ∧ (P x (h x) ∨ ∃ p ∈ known, Q x (h x) p.1 p.2)) ≤ (known.length + 1) * ε := by
      by_cases hx : ∀ p ∈ known, p.1 ≠ x
      · refine le_trans (cprob_mono S (Q := fun h => P x (h x) ∨ ∃ p ∈ known, Q x (h x) p.1 p.2) fun h _ hh => hh.2) ?_
        refine le_trans (cprob_point S x (fun F hF y => hS F hF x hx y) (fun y => P x y ∨ ∃ p ∈ known, Q x y p.1 p.2)) ?_
        refine le_trans (prob_or _ _) ?_
        have := hP x
        have := h0 known
        linarith
      · have : cprob S (fun h => (∀ p ∈ known, p.1 ≠ x) ∧ (P x (h x) ∨ ∃ p ∈ known, Q x (h x) p.1 p.2)) = 0 := by
          unfold cprob; simp only [hx, false_and, and_false]; simp
        rw [this]; positivity
    have h2 : cprob S (fun h => Finds P Q h (next (h x)) ((x, h x) :: known)) ≤ (n * (2 * (known.length + 1) + n + 1) / 2) * ε := by
      refine cprob_cases S (fun h => h x) _ _ (by positivity) fun y _ => ?_
      have := ih y n (hn y) ((x, y) :: known) {h ∈ S | h x = y} ?_
      · rw [List.length_cons] at this
        push_cast at this
        refine le_trans (le_of_eq (cprob_congr fun h hh => ?_)) this
        rw [show h x = y from hh.2]
      · rintro F ⟨h1, h2⟩ z hz v
        refine ⟨hS F h1 z (fun p hp => hz p (List.mem_cons_of_mem _ hp)) v, ?_⟩
        have := hz (x, y) (List.mem_cons_self ..)
        simp only [Function.update_of_ne this]
        exact h2
    refine (add_le_add h1 h2).trans (le_of_eq ?_)
    push_cast
    ring

end Search

/-! ## The claimant as a search -/

section Claims
variable {N : Nat}

/-- Evaluate at `x`, if it is not too long. -/
def askIf (x : Bytes) (t : Eval {x : Bytes // x.length ≤ N} Dig) : Eval {x : Bytes // x.length ≤ N} Dig :=
  if h : x.length ≤ N then .ask ⟨x, h⟩ fun _ => t else .stop

/-- The arguments at which the claimant and then the checks of its claim evaluate the hash function. -/
def search : Claimant → Eval {x : Bytes // x.length ≤ N} Dig
  | .stop c => askIf (c.signature.take 32 ++ c.key ++ c.message) (askIf (c.signature.take 32 ++ c.key' ++ c.message') .stop)
  | .hash x next => if h : x.length ≤ N then .ask ⟨x, h⟩ fun y => search (next y.1) else .stop

theorem search_within (X : Claimant) (q : Nat) (hX : X.Within N q) : (search X : Eval {x : Bytes // x.length ≤ N} Dig).Within (q + 2) := by
  induction X generalizing q with
  | stop c =>
    unfold search askIf
    split
    · refine ⟨q + 1, rfl, fun _ => ?_⟩
      split
      · exact ⟨q, rfl, fun _ => trivial⟩
      · trivial
    · trivial
  | hash x next ih =>
    obtain ⟨h1, q, rfl, h2⟩ := hX
    unfold search
    rw [dif_pos h1]
    exact ⟨q + 2, rfl, fun y => ih y.1 q (h2 y.1 y.2)⟩

theorem search_args (X : Claimant) (q : Nat) (hX : X.Within N q) (H : Keyed N 64) (c : Claim) (hc : X.run H.ask = c)
    (h1 : (c.signature.take 32 ++ c.key ++ c.message).length ≤ N) (h2 : (c.signature.take 32 ++ c.key' ++ c.message').length ≤ N) :
    ⟨_, h1⟩ ∈ (search X).args H ∧ ⟨_, h2⟩ ∈ (search X).args H := by
  induction X generalizing q with
  | stop c' =>
    have : c' = c := hc
    subst this
    unfold search askIf
    rw [dif_pos h1, dif_pos h2]
    simp [Eval.args]
  | hash x next ih =>
    obtain ⟨h3, q, rfl, h4⟩ := hX
    have hx : H.ask x = (H ⟨x, h3⟩).1 := by unfold Keyed.ask; rw [dif_pos h3]
    obtain ⟨j1, j2⟩ := ih (H.ask x) q (h4 _ (ask_length H x)) hc
    unfold search
    rw [dif_pos h3]
    rw [hx] at j1 j2
    exact ⟨List.mem_cons_of_mem _ j1, List.mem_cons_of_mem _ j2⟩

/-- The key in an argument of the hash function. -/
def keyPart (x : {x : Bytes // x.length ≤ N}) : Bytes := (x.1.drop 32).take 32

/-- The hash is a multiple of `L`. -/
def IsZero (x : {x : Bytes // x.length ≤ N}) (k : Dig) : Prop :=
  ∃ A, DecodesLax (keyPart x) A ∧ smul 8 A ≠ zero ∧ leNat k.1 % L = 0

/-- The hashes times the keys are the same point. -/
def Links (x : {x : Bytes // x.length ≤ N}) (k : Dig) (x' : {x : Bytes // x.length ≤ N}) (k' : Dig) : Prop :=
  ∃ A A', DecodesLax (keyPart x) A ∧ DecodesLax (keyPart x') A' ∧ smul 8 A ≠ zero ∧ smul (leNat k.1 % L) A = smul (leNat k'.1 % L) A'

theorem prob_residue (r : Nat) : prob (fun k : Dig => leNat k.1 % L = r) ≤ 1 / 2 ^ 252 := by
  classical
  have : Fintype Dig := Fintype.ofFinite _
  have h1 := digest_residue 0 r
  have h2 := sum_dig (fun y => if (leNat y + 0) % L = r then 1 else 0)
  rw [← h2] at h1
  refine le_trans (le_of_eq ?_) h1
  unfold prob
  rw [Nat.card_eq_fintype_card, Finset.sum_boole, Set.ncard_eq_toFinset_card']
  congr 3
  ext k
  simp

theorem prob_isZero (x : {x : Bytes // x.length ≤ N}) : prob (IsZero x) ≤ 1 / 2 ^ 252 :=
  le_trans (prob_mono fun _ ⟨_, _, _, h⟩ => h) (prob_residue 0)

theorem eight {A : Point} (hA : onCurve A) (h : smul 8 A ≠ zero) : 8 • (⟨A, hA⟩ : Pt25519) ≠ 0 := fun e => h (by
  have := congrArg Subtype.val e
  rwa [coe_smul] at this)

theorem prob_links (x z : {x : Bytes // x.length ≤ N}) (c : Dig) : prob (fun k => Links x k z c) ≤ 1 / 2 ^ 252 := by
  by_cases h : ∃ k, Links x k z c
  · obtain ⟨k0, A, A', dA, dA', h8, e⟩ := h
    refine le_trans (prob_mono fun k hk => ?_) (prob_residue (leNat k0.1 % L))
    obtain ⟨A1, A1', dA1, dA1', -, e1⟩ := hk
    obtain rfl := decodesLax_unique dA dA1
    obtain rfl := decodesLax_unique dA' dA1'
    refine eq_of_smul_eq (eight dA.1 h8) (Subtype.ext ?_)
    rw [coe_smul, coe_smul]
    exact e1.trans e.symm
  · have : prob (fun k => Links x k z c) = 0 := by
      unfold prob
      have : {k | Links x k z c} = ∅ := by
        ext k
        simp only [Set.mem_ofPred_eq, Set.mem_empty_iff_false, iff_false]
        exact fun hk => h ⟨k, hk⟩
      rw [this]
      simp
    rw [this]; positivity

/-- C116. Replace SHA-512 in `verify` by a uniformly random function `H`. Take any claimant that calls `H` at most `q` times, and that may know or choose all
secret keys. The probability that it ends with one signature that `verify` accepts under `key` for `message` and under `key'` for `message'`, where key or
message differ and `key` is not of small order, is at most `(q + 2) (q + 3) / 2^253`. -/
theorem C116_one_owner (m : Mode) (N : Nat) (X : Claimant) (q : Nat) (hX : X.Within N q) :
    prob (fun H : Keyed N 64 => ∃ c, X.run H.ask = c ∧ (c.key, c.message) ≠ (c.key', c.message') ∧
      (∀ A, DecodesLax c.key A → smul 8 A ≠ zero) ∧
      verifyWith m H.ask c.message c.signature c.key = some true ∧
      verifyWith m H.ask c.message' c.signature c.key' = some true) ≤ (q + 2) * (q + 3) / 2 ^ 253 := by
  classical
  have key := finds_le (IsZero (N := N)) Links (1 / 2 ^ 252) (by positivity) prob_isZero prob_links (search X) (q + 2) (search_within X q hX)
    [] Set.univ (fun _ _ _ _ _ => Set.mem_univ _)
  rw [cprob_univ] at key
  refine le_trans (prob_mono fun H hH => ?_) (key.trans (le_of_eq ?_))
  · by_contra hno
    obtain ⟨c, hc, hne, hord, v1, v2⟩ := hH
    obtain ⟨hz, hl⟩ := not_finds _ _ hno
    have len : ∀ M pk, verifyWith m H.ask M c.signature pk = some true → pk.length = 32 := by
      intro M pk h
      by_contra hpk
      unfold verifyWith at h
      rw [show (32 == pk.length) = false from beq_eq_false_iff_ne.mpr (fun e => hpk e.symm)] at h
      cases h
    have k1 := len _ _ v1
    have k2 := len _ _ v2
    obtain ⟨hs, A, A', dA, dA', e⟩ := two_owners m H.ask (ask_length H) _ _ _ _ _ k1 k2 v1 v2
    have hw : c.message.length + 64 ≤ N ∧ c.message'.length + 64 ≤ N := by
      clear hno hz hl key v1 v2 e
      induction X generalizing q with
      | stop c' =>
        have : c' = c := hc
        subst this
        exact hX
      | hash x next ih =>
        obtain ⟨_, q, rfl, h4⟩ := hX
        exact ih (H.ask x) q (h4 _ (ask_length H x)) hc
    have ht : (c.signature.take 32).length = 32 := by simp [hs]
    have l1 : (c.signature.take 32 ++ c.key ++ c.message).length ≤ N := by simp only [List.length_append, ht, k1]; omega
    have l2 : (c.signature.take 32 ++ c.key' ++ c.message').length ≤ N := by simp only [List.length_append, ht, k2]; omega
    obtain ⟨a1, a2⟩ := search_args X q hX H c hc l1 l2
    have p1 : keyPart (N := N) ⟨_, l1⟩ = c.key := by
      unfold keyPart
      simp only
      rw [List.append_assoc, List.drop_left' ht, List.take_left' k1]
    have p2 : keyPart (N := N) ⟨_, l2⟩ = c.key' := by
      unfold keyPart
      simp only
      rw [List.append_assoc, List.drop_left' ht, List.take_left' k2]
    have q1 : H.ask (c.signature.take 32 ++ c.key ++ c.message) = (H ⟨_, l1⟩).1 := by unfold Keyed.ask; rw [dif_pos l1]
    have q2 : H.ask (c.signature.take 32 ++ c.key' ++ c.message') = (H ⟨_, l2⟩).1 := by unfold Keyed.ask; rw [dif_pos l2]
    rw [q1, q2] at e
    have hA := hord A dA
    have n1 : Links ⟨_, l1⟩ (H ⟨_, l1⟩) ⟨_, l2⟩ (H ⟨_, l2⟩) := ⟨A, A', by rw [p1]; exact dA, by rw [p2]; exact dA', hA, e⟩
    by_cases hA' : smul 8 A' = zero
    · refine (hz _ a1 (by simp)).1 ⟨A, by rw [p1]; exact dA, hA, ?_⟩
      have z1 : 8 • (⟨A', dA'.1⟩ : Pt25519) = 0 := Subtype.ext (by rw [coe_smul]; exact hA')
      have e' : (leNat (H ⟨_, l1⟩).1 % L) • (⟨A, dA.1⟩ : Pt25519) = (leNat (H ⟨_, l2⟩).1 % L) • ⟨A', dA'.1⟩ :=
        Subtype.ext (by rw [coe_smul, coe_smul]; exact e)
      have z2 : ((8 * (leNat (H ⟨_, l1⟩).1 % L) : Nat) : Int) • (⟨A, dA.1⟩ : Pt25519) = 0 := by
        rw [natCast_zsmul, mul_smul, e', smul_comm, z1, smul_zero]
      have z3 := Int.natCast_dvd_natCast.mp (L_dvd_of_smul (eight dA.1 hA) z2)
      have z4 : L ∣ leNat (H ⟨_, l1⟩).1 % L := by
        refine (Nat.Coprime.dvd_of_dvd_mul_left ?_ z3)
        have := (Nat.coprime_primes Ed.prime_L Nat.prime_two).mpr (by norm_num [L])
        exact Nat.Coprime.pow_right 3 this
      exact Nat.eq_zero_of_dvd_of_lt z4 (Nat.mod_lt _ L_pos)
    · refine hl _ a1 _ a2 ?_ (by simp) (by simp) ⟨n1, A', A, by rw [p2]; exact dA', by rw [p1]; exact dA, hA', e.symm⟩
      intro he
      have he := congrArg Subtype.val he
      simp only [List.append_assoc] at he
      have he := List.append_cancel_left he
      obtain ⟨e1, e2⟩ := List.append_inj he (by rw [k1, k2])
      exact hne (by rw [e1, e2])
  · push_cast
    simp only [List.length_nil, Nat.cast_zero]
    ring

theorem key_order (az : Bytes) (A : Point) (hA : DecodesLax (encode (smul (scalarOf az) B)) A) : smul 8 A ≠ zero := by
  obtain rfl := decodesLax_unique hA (Ed.Decodes.lax (decodes_smul _))
  rw [smul_smul', ← coe_smulG, ← coe_zero]
  intro h
  rw [lift_eq, ← addOrderOf_dvd_iff_nsmul_eq_zero, addOrderOf_G] at h
  rcases (Nat.Prime.dvd_mul Ed.prime_L).mp h with h | h
  · exact absurd (Nat.le_of_dvd (by norm_num) h) (by norm_num [L])
  · exact scalarOf_ndvd az h

/-- C116. Nobody, not even the owner of a key made by `gen_pk`, finds a signature that is valid under this key and also under another key, or also for
another message. `az` is the hash of the secret key (lines 14-16 of src/ed25519.rs), which the claimant may know. -/
theorem C116_honest_key (m : Mode) (N : Nat) (az pk : Bytes) (haz : az.length = 64) (hpk : genPkWith m az = some pk) (X : Claimant) (q : Nat)
    (hX : X.Within N q) :
    prob (fun H : Keyed N 64 => ∃ c, X.run H.ask = c ∧ c.key = pk ∧ (c.key, c.message) ≠ (c.key', c.message') ∧
      verifyWith m H.ask c.message c.signature c.key = some true ∧
      verifyWith m H.ask c.message' c.signature c.key' = some true) ≤ (q + 2) * (q + 3) / 2 ^ 253 := by
  refine le_trans (prob_mono fun H hH => ?_) (C116_one_owner m N X q hX)
  obtain ⟨c, h1, h2, h3, h4, h5⟩ := hH
  refine ⟨c, h1, h3, ?_, h4, h5⟩
  rw [genPkWith_spec m haz] at hpk
  cases hpk
  rw [h2]
  exact key_order az

end Claims

/-! ## Concrete cases -/

/-- The owner of the scalar `a` makes a signature with the nonce 1, and claims it also for the key `2 B`. -/
def thief (a : Nat) : Claimant :=
  .hash (encode B ++ encode (smul a B) ++ [1]) fun k =>
    .stop ⟨encode B ++ toLE 32 ((1 + leNat k * a) % L), encode (smul a B), [1], encode (smul 2 B), [1]⟩

theorem thief_within (a : Nat) : (thief a).Within 65 1 :=
  ⟨by simp [encode_length], 0, rfl, fun _ _ => by constructor <;> simp⟩

example (m : Mode) (az pk : Bytes) (haz : az.length = 64) (hpk : genPkWith m az = some pk) :
    prob (fun H : Keyed 65 64 => ∃ c, (thief (scalarOf az)).run H.ask = c ∧ c.key = pk ∧ (c.key, c.message) ≠ (c.key', c.message') ∧
      verifyWith m H.ask c.message c.signature c.key = some true ∧
      verifyWith m H.ask c.message' c.signature c.key' = some true) ≤ 12 / 2 ^ 253 := by
  refine (C116_honest_key m 65 az pk haz hpk (thief (scalarOf az)) 1 (thief_within _)).trans (le_of_eq ?_)
  norm_num

example (m : Mode) : prob (fun H : Keyed 65 64 => ∃ c, (thief 5).run H.ask = c ∧ (c.key, c.message) ≠ (c.key', c.message') ∧
      (∀ A, DecodesLax c.key A → smul 8 A ≠ zero) ∧ verifyWith m H.ask c.message c.signature c.key = some true ∧
      verifyWith m H.ask c.message' c.signature c.key' = some true) ≤ 12 / 2 ^ 253 := by
  refine (C116_one_owner m 65 (thief 5) 1 (thief_within _)).trans (le_of_eq ?_)
  norm_num

/-- The hypothesis on the order of the key is needed: with the neutral key a claim for two messages succeeds whatever the hash function. -/
example (m : Mode) (H : Keyed 65 64) (M : Bytes) : verifyWith m H.ask M (encode zero ++ zeros 32) (encode zero) = some true := by
  obtain ⟨b, e, hb⟩ := verifyWith_spec m (M := M) (sig := encode zero ++ zeros 32) (encode_length zero) H.ask (ask_length H)
  rw [e, Option.some_inj, hb]
  have hl : (encode zero).length = 32 := encode_length _
  rw [List.take_left' hl, List.drop_left' hl]
  refine ⟨by simp [hl], by rw [leNat_zeros]; norm_num, zero, Ed.Decodes.lax ⟨zero_on, rfl⟩, ?_⟩
  rw [leNat_zeros, smul_zero_pt, neg_zero_pt]
  simp only [smul]
  simp [add, zero]

/-- The hypotheses of `C116_two_owners` are met by the neutral key and two messages (C53). -/
example (M M' : Bytes) (hM : M.length + 64 < 2 ^ 61) (hM' : M'.length + 64 < 2 ^ 61) : ∃ sig pk,
    pk.length = 32 ∧ Model.Ed25519.verify .debug M sig pk = some true ∧ Model.Ed25519.verify .debug M' sig pk = some true :=
  ⟨_, _, encode_length zero, C53_neutral_key_accepts_everything .debug M _ (encode_length _) hM (Ed.Decodes.lax ⟨zero_on, rfl⟩),
    C53_neutral_key_accepts_everything .debug M' _ (encode_length _) hM' (Ed.Decodes.lax ⟨zero_on, rfl⟩)⟩

end CryptoPure.Props.Ed25519
