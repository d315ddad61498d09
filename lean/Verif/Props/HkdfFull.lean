import Verif.Proofs.ExtractIdeal
import Verif.Props.HkdfIdeal

/-! # C106: HKDF from a secret with little structure, when the compression function of SHA-2 is random

As in C104 and C105; the input keying material is any secret that is hard to guess, the salt is public. -/

namespace CryptoPure.Props
open CryptoPure.Model Spec.Sha2 Proofs Proofs.HmacSha Proofs.HmacIdeal Switch
open Game hiding play forges

/-! ## Attackers on HMAC under a known key only evaluate the compression function -/

section Tree
variable {w : Nat} {A : Alg w} (iv : Oct w) {n N : Nat} (hb : A.lenBytes + 1 ≤ A.blockBytes) (hn : n ≤ 8 * (w / 8)) (hk : n ≤ A.blockBytes)
  (hnb : A.lenBytes + 1 + n ≤ A.blockBytes) {R : Type}

/-- Absorb `bs`, then go on with the result. -/
def chainK {C B : Type} : C → List B → (C → Eval (C × B) C) → Eval (C × B) C
  | s, [], next => next s
  | s, b :: bs, next => .ask (s, b) fun y => chainK y bs next

theorem chainK_args {C B : Type} (f : C × B → C) (s : C) (bs : List B) (next : C → Eval (C × B) C) :
    (chainK s bs next).args f = calls f s bs ++ (next (chain f s bs)).args f := by
  induction bs generalizing s with
  | nil => rfl
  | cons b bs ih => simp [chainK, Eval.args, calls, chain, ih]

theorem chainK_within {C B : Type} (s : C) (bs : List B) (next : C → Eval (C × B) C) (p : Nat) (h : ∀ y, (next y).Within p) :
    (chainK s bs next).Within (bs.length + p) := by
  induction bs generalizing s with
  | nil => simpa [chainK] using h s
  | cons b bs ih => exact ⟨bs.length + p, by simp; omega, fun y => ih y⟩

/-- Compute the tag of `M` under `t`, then go on with it. -/
def tagE (t : {d : Bytes // d.length = n}) (M : Bytes) (next : Bytes → Eval (Oct w × Blk A.blockBytes) (Oct w)) : Eval (Oct w × Blk A.blockBytes) (Oct w) :=
  if M.length ≤ N then
    .ask (iv, keyBlock hk 0x36 t) fun kin => chainK kin (blocksOf A hb M) fun s => .ask (iv, keyBlock hk 0x5c t) fun kout =>
      .ask (kout, lastBlock A (out n hn s) hnb) fun y => next (out n hn y).1
  else next (zeros n)

/-- The evaluations of an attacker on HMAC under `t`. -/
def treeE (t : {d : Bytes // d.length = n}) : MacGame.Attacker w R → Eval (Oct w × Blk A.blockBytes) (Oct w)
  | .stop _ => .stop
  | .compress H b next => if h : b.length = A.blockBytes then .ask (H, ⟨b, h⟩) fun y => treeE t (next y) else treeE t (next H)
  | .tag M next => tagE (N := N) iv hb hn hk hnb t M fun r => treeE t (next r)
  | .verify M s next => tagE (N := N) iv hb hn hk hnb t M fun r => treeE t (next (decide (r = s)))

variable {iv hb hn hk hnb}

theorem tagE_args (F : Fn w A.blockBytes) (t : {d : Bytes // d.length = n}) (M : Bytes) (next : Bytes → Eval (Oct w × Blk A.blockBytes) (Oct w)) :
    ∀ x ∈ (next ((hmacTag (N := N) A iv hb hn hk hnb F t).ask M)).args F, x ∈ (tagE (N := N) iv hb hn hk hnb t M next).args F := by
  intro x hx
  unfold tagE
  unfold Keyed.ask at hx
  split at hx
  · next h =>
    rw [if_pos h]
    simp only [Eval.args, chainK_args, List.mem_cons, List.mem_append]
    exact Or.inr (Or.inr (Or.inr (Or.inr hx)))
  · next h => rw [if_neg h]; exact hx

theorem tagE_congr (F F' : Fn w A.blockBytes) (t : {d : Bytes // d.length = n}) (M : Bytes) (next : Bytes → Eval (Oct w × Blk A.blockBytes) (Oct w))
    (h : ∀ x ∈ (tagE (N := N) iv hb hn hk hnb t M next).args F, F x = F' x) :
    (hmacTag (N := N) A iv hb hn hk hnb F t).ask M = (hmacTag (N := N) A iv hb hn hk hnb F' t).ask M := by
  unfold Keyed.ask
  split
  · next hM =>
    unfold tagE at h
    rw [if_pos hM] at h
    simp only [Eval.args, chainK_args, List.mem_cons, List.mem_append] at h
    have e1 := h _ (Or.inl rfl)
    have e2 := h _ (Or.inr (Or.inr (Or.inl rfl)))
    have e3 := h _ (Or.inr (Or.inr (Or.inr (Or.inl rfl))))
    have e4 : chain F' (F (iv, keyBlock hk 0x36 t)) (blocksOf A hb M) = chain F (F (iv, keyBlock hk 0x36 t)) (blocksOf A hb M) :=
      chain_congr _ _ fun x hx => (h x (Or.inr (Or.inl hx))).symm
    show (out n hn (F (F (iv, keyBlock hk 0x5c t), lastBlock A (out n hn (chain F (F (iv, keyBlock hk 0x36 t)) (blocksOf A hb M))) hnb))).1 =
      (out n hn (F' (F' (iv, keyBlock hk 0x5c t), lastBlock A (out n hn (chain F' (F' (iv, keyBlock hk 0x36 t)) (blocksOf A hb M))) hnb))).1
    rw [e3, ← e2, ← e1, e4]
  · rfl

theorem treeE_congr (F F' : Fn w A.blockBytes) (t : {d : Bytes // d.length = n}) (X : MacGame.Attacker w R)
    (h : ∀ x ∈ (treeE (N := N) iv hb hn hk hnb t X).args F, F x = F' x) :
    MacGame.play (idealWorld (fn F) (hmacTag (N := N) A iv hb hn hk hnb F t)) X =
    MacGame.play (idealWorld (fn F') (hmacTag (N := N) A iv hb hn hk hnb F' t)) X := by
  induction X with
  | stop r => rfl
  | compress H b next ih =>
    rw [treeE] at h
    show MacGame.play _ (next (fn F H b)) = MacGame.play _ (next (fn F' H b))
    unfold fn
    split
    · next hb =>
      rw [dif_pos hb] at h
      rw [← h _ (by simp [Eval.args])]
      exact ih _ (fun x hx => h x (by simp [Eval.args, hx]))
    · next hb =>
      rw [dif_neg hb] at h
      exact ih _ h
  | tag M next ih =>
    rw [treeE] at h
    have e := tagE_congr F F' t M _ h
    show MacGame.play _ (next ((hmacTag (N := N) A iv hb hn hk hnb F t).ask M)) = MacGame.play _ (next ((hmacTag (N := N) A iv hb hn hk hnb F' t).ask M))
    rw [← e]
    exact ih _ (fun x hx => h x (tagE_args F t M _ x hx))
  | verify M s next ih =>
    rw [treeE] at h
    have e := tagE_congr F F' t M _ h
    show MacGame.play _ (next (decide ((hmacTag (N := N) A iv hb hn hk hnb F t).ask M = s))) =
      MacGame.play _ (next (decide ((hmacTag (N := N) A iv hb hn hk hnb F' t).ask M = s)))
    rw [← e]
    exact ih _ (fun x hx => h x (tagE_args F t M _ x hx))

theorem treeE_within (t : {d : Bytes // d.length = n}) (X : MacGame.Attacker w R) (p c v : Nat) (hX : X.Within A.blockBytes N (cost A) p c v) :
    (treeE (N := N) iv hb hn hk hnb t X).Within (p + 4 * c) := by
  have htag : ∀ (M : Bytes) (hM : M.length ≤ N) (next : Bytes → Eval (Oct w × Blk A.blockBytes) (Oct w)) (q : Nat), (∀ r, (next r).Within q) →
      (tagE (N := N) iv hb hn hk hnb t M next).Within (q + 4 * cost A M.length) := by
    intro M hM next q h
    unfold tagE
    rw [if_pos hM]
    have : 1 ≤ cost A M.length := Nat.succ_pos _
    have hc : ∀ kin, (chainK kin (blocksOf A hb M) fun s => Eval.ask (iv, keyBlock hk 0x5c t) fun kout =>
        Eval.ask (kout, lastBlock A (out n hn s) hnb) fun y => next (out n hn y).1).Within ((blocksOf A hb M).length + (q + 2)) :=
      fun kin => chainK_within _ _ _ _ (fun s => ⟨_, rfl, fun y => ⟨_, rfl, fun z => h _⟩⟩)
    refine ⟨q + 4 * cost A M.length - 1, by omega, fun y => (hc y).mono ?_⟩
    rw [blocksOf_length]
    omega
  induction X generalizing p c v with
  | stop r => trivial
  | compress H b next ih =>
    obtain ⟨h1, p, rfl, h⟩ := hX
    rw [treeE, dif_pos h1]
    exact ⟨p + 4 * c, by omega, fun y => ih y _ _ _ (h y)⟩
  | tag M next ih =>
    obtain ⟨h1, c, rfl, h⟩ := hX
    rw [treeE]
    exact (htag M h1 _ _ fun r => ih r _ _ _ (h r)).mono (by omega)
  | verify M s next ih =>
    obtain ⟨h1, c, rfl, v, rfl, h⟩ := hX
    rw [treeE]
    exact (htag M h1 _ _ fun r => ih _ _ _ _ (h _)).mono (by omega)

end Tree

/-! ## The general theorem -/

section General
variable {w : Nat} {P : Model.Sha2.Params w} {A : Alg w} {R : Type} {n sl N N' : Nat} {K : Type} [Finite K] [Nonempty K]

/-- The error. -/
def extractError (δ : ℚ) (n p l : Nat) : ℚ := (p + 2) * δ + ((p + 2) * (p + 3) + l * (l + 2 * p + 5)) / 256 ^ n

/-- The part of the error that does not come from the secret. -/
def extractSlack (n p l : Nat) : ℚ := ((p + 2) * (p + 3) + l * (l + 2 * p + 5)) / 256 ^ n

omit [Nonempty K] in
theorem cut (H : Fits P A n sl N) (E : K → Fn w A.blockBytes → {d : Bytes // d.length = n} → Prop) :
    prob (fun q : K × (Fn w A.blockBytes × Oct w) => E q.1 q.2.1 (out n H.nw q.2.2)) =
    prob (fun q : K × (Fn w A.blockBytes × {d : Bytes // d.length = n}) => E q.1 q.2.1 q.2.2) := by
  let e : K × (Fn w A.blockBytes × Oct w) ≃ (K × (Fn w A.blockBytes × {d : Bytes // d.length = n})) × {d : Bytes // d.length = 8 * (w / 8) - n} :=
    ((Equiv.refl _).prodCongr (((Equiv.refl _).prodCongr (splitOct H.w8 n H.nw)).trans (Equiv.prodAssoc _ _ _).symm)).trans (Equiv.prodAssoc _ _ _).symm
  rw [← prob_fst (β := {d : Bytes // d.length = 8 * (w / 8) - n}) (P := fun q : K × (Fn w A.blockBytes × {d : Bytes // d.length = n}) => E q.1 q.2.1 q.2.2),
    ← prob_equiv e]
  rfl

/-- The attacker absorbs the secret and sees nothing else that is unlikely. -/
def Absorbs (H : Fits P A n sl N) (iv : Oct w) (salt : {k : Bytes // k.length = sl}) (ikm : K → {x : Bytes // x.length ≤ N})
    (T : K → {d : Bytes // d.length = n} → Eval (Oct w × Blk A.blockBytes) (Oct w)) (k : K) (F : Fn w A.blockBytes) (t : {d : Bytes // d.length = n}) : Prop :=
  ExtractIdeal.Hit iv (keyBlock H.hk 0x36 salt) (keyBlock H.hk 0x5c salt) (fun k => blocksOf A H.hb (ikm k).1) (out n H.nw) T k F t

theorem ext_near (H : Fits P A n sl N) (iv : Oct w) (salt : {k : Bytes // k.length = sl}) (ikm : K → {x : Bytes // x.length ≤ N})
    (T : K → {d : Bytes // d.length = n} → Eval (Oct w × Blk A.blockBytes) (Oct w)) (p : Nat)
    (hT : ∀ k t, (T k t).Within p) (E : K → Fn w A.blockBytes → {d : Bytes // d.length = n} → Prop)
    (hE : ∀ k F F' t, (∀ x ∈ (T k t).args F, F x = F' x) → E k F t → E k F' t) :
    prob (fun q : K × (Fn w A.blockBytes × {d : Bytes // d.length = n}) => E q.1 q.2.1 q.2.2) ≤
      prob (fun q : K × Fn w A.blockBytes => E q.1 q.2 (hmacTag (N := N) A iv H.hb H.nw H.hk H.hnb q.2 salt (ikm q.1))) +
      (prob (fun q : K × (Fn w A.blockBytes × {d : Bytes // d.length = n}) => Absorbs H iv salt ikm T q.1 q.2.1 q.2.2) + extractSlack n p (cost A N)) := by
  have : Nonempty {d : Bytes // d.length = n} := ⟨⟨zeros n, by simp⟩⟩
  have hbs : P.blockSize = A.blockBytes := by rw [H.matches'.block, H.matches'.ablock]
  have h1 := ExtractIdeal.ideal_le_real (iv := iv) (bi := keyBlock H.hk 0x36 salt) (bo := keyBlock H.hk 0x5c salt)
    (blocks := fun k => blocksOf A H.hb (ikm k).1) (g := out n H.nw) (ob := fun d => lastBlock A d H.hnb) E hE
  have h2 := ExtractIdeal.not_ok_le_hit (iv := iv) (bi := keyBlock H.hk 0x36 salt) (bo := keyBlock H.hk 0x5c salt)
    (blocks := fun k => blocksOf A H.hb (ikm k).1) (g := out n H.nw) (ob := fun d => lastBlock A d H.hnb) (A := T)
    (by
      have := H.b128
      have := H.n64
      intro a b e
      have ha := a.2
      have hb := b.2
      exact Subtype.ext (padded_inj A H.hl (by omega) (by omega) (congrArg Subtype.val e)))
    (keyBlock_ne (by have := H.hb; omega) H.hk salt)
    (by
      intro k e
      have := congrArg List.length e
      rw [blocksOf_length] at this
      simp [cost] at this)
    (1 / 256 ^ n) (by positivity) (fun t => le_of_eq (prob_out H.w8 n H.nw t)) p (cost A N) hT
    (by
      intro k
      rw [blocksOf_length]
      unfold cost
      exact Nat.add_le_add_right (Nat.div_le_div_right (Nat.add_le_add_right (ikm k).2 _)) _)
  rw [← cut H E, ← cut H (Absorbs H iv salt ikm T)]
  refine le_trans h1 (add_le_add (le_of_eq ?_) (le_trans h2 (add_le_add (le_of_eq ?_) (le_of_eq ?_))))
  · rfl
  · rfl
  · unfold extractSlack
    ring

/-- An attacker that knows nothing about the secret does not absorb it. -/
theorem absorbs_le (H : Fits P A n sl N) (iv : Oct w) (salt : {k : Bytes // k.length = sl}) (ikm : K → {x : Bytes // x.length ≤ N})
    (δ : ℚ) (hδ : ∀ x, prob (fun k => (ikm k).1 = x) ≤ δ)
    (T : {d : Bytes // d.length = n} → Eval (Oct w × Blk A.blockBytes) (Oct w)) (p : Nat) (hT : ∀ t, (T t).Within p) :
    prob (fun q : K × (Fn w A.blockBytes × {d : Bytes // d.length = n}) => Absorbs H iv salt ikm (fun _ => T) q.1 q.2.1 q.2.2) ≤ (p + 2) * δ := by
  have hδ0 : 0 ≤ δ := le_trans (by unfold prob; positivity) (hδ [])
  rw [← cut H (Absorbs H iv salt ikm fun _ => T)]
  refine ExtractIdeal.hit_le (g := out n H.nw) ?_ δ hδ0 ?_ T p hT
  · intro k e
    have := congrArg List.length e
    rw [blocksOf_length] at this
    simp [cost] at this
  · intro l
    by_cases h0 : ∃ k0, blocksOf A H.hb (ikm k0).1 = l
    · obtain ⟨k0, rfl⟩ := h0
      refine le_trans (prob_mono fun k hk => ?_) (hδ (ikm k0).1)
      have := H.hN
      have := (ikm k).2
      have := (ikm k0).2
      exact blocksOf_inj A H.hb H.hl (by omega) (by omega) hk
    · have : prob (fun k => blocksOf A H.hb (ikm k).1 = l) = 0 := by
        unfold prob
        have : {k | blocksOf A H.hb (ikm k).1 = l} = ∅ := by
          ext k
          simp only [Set.mem_ofPred_eq, Set.mem_empty_iff_false, iff_false]
          exact fun h => h0 ⟨k, h⟩
        rw [this]; simp
      rw [this]; exact hδ0

theorem ext_general_hit (H : Fits P A n sl N) (H' : Fits P A n n N') (iv : Oct w) (m : Mode) (salt : Bytes) (hs : salt.length = sl) (ikm : K → Bytes)
    (hi : ∀ k, (ikm k).length ≤ N) (buf : Bytes) (hbuf : buf.length = n)
    (Y : K → Bytes → MacGame.Attacker w R) (p c v : Nat) (hY : ∀ k t, t.length = n → (Y k t).Within A.blockBytes N' (cost A) p c v) (W : K → Option R → Prop) :
    |prob (fun q : K × Fn w A.blockBytes => W q.1 ((Hkdf.extract (ShaWith.implFunction P (fn q.2) iv n P.blockSize) m salt (ikm q.1) buf).bind fun prk =>
        MacGame.play (hmacWorld (fun f => ShaWith.implFunction P f iv n P.blockSize) m (fn q.2) prk) (Y q.1 prk))) -
      prob (fun q : K × (Fn w A.blockBytes × {d : Bytes // d.length = n}) =>
        W q.1 (MacGame.play (hmacWorld (fun f => ShaWith.implFunction P f iv n P.blockSize) m (fn q.2.1) q.2.2.1) (Y q.1 q.2.2.1)))| ≤
    prob (fun q : K × (Fn w A.blockBytes × {d : Bytes // d.length = n}) => Absorbs H iv ⟨salt, hs⟩ (fun k => ⟨ikm k, hi k⟩)
      (fun k t => treeE (N := N') iv H'.hb H'.nw H'.hk H'.hnb t (Y k t.1)) q.1 q.2.1 q.2.2) + extractSlack n (p + 4 * c) (cost A N) := by
  have hbs : P.blockSize = A.blockBytes := by rw [H.matches'.block, H.matches'.ablock]
  let E : (K → Option R → Prop) → K → Fn w A.blockBytes → {d : Bytes // d.length = n} → Prop := fun W k F t =>
    W k (MacGame.play (hmacWorld (fun f => ShaWith.implFunction P f iv n P.blockSize) m (fn F) t.1) (Y k t.1))
  have hE : ∀ W k F F' t, (∀ x ∈ (treeE (N := N') iv H'.hb H'.nw H'.hk H'.hnb t (Y k t.1)).args F, F x = F' x) → E W k F t → E W k F' t := by
    intro W k F F' t h h1
    show W k _
    rw [(real_eq H' iv m F' t (cost A) (Y k t.1) p c v (hY k _ t.2)).1, ← treeE_congr F F' t (Y k t.1) h,
      ← (real_eq H' iv m F t (cost A) (Y k t.1) p c v (hY k _ t.2)).1]
    exact h1
  have hreal : ∀ q : K × Fn w A.blockBytes, Hkdf.extract (ShaWith.implFunction P (fn q.2) iv n P.blockSize) m salt (ikm q.1) buf =
      some (hmacTag (N := N) A iv H.hb H.nw H.hk H.hnb q.2 ⟨salt, hs⟩ ⟨ikm q.1, hi q.1⟩).1 := by
    intro q
    have L := Proofs.ShaWith.lawful_impl (f := fn q.2) H.matches' iv n H.nw H.n0 H.nd H.n64 H.b128
    have h1 := hi q.1
    have h2 := H.hN
    have h3 := H.hk
    rw [extract_spec L m salt (ikm q.1) buf (by omega) (by show P.blockSize + _ < _; omega), if_pos (show buf.length = (ShaWith.implFunction P (fn q.2) iv n P.blockSize).digestSize from hbuf),
      ← hmac_eq A iv H.hb H.nw H.hk H.hnb q.2 ⟨salt, hs⟩ ⟨ikm q.1, hi q.1⟩]
    show some (Spec.hmac _ P.blockSize _ _) = _
    rw [hbs]
  have near : ∀ W, prob (fun q : K × (Fn w A.blockBytes × {d : Bytes // d.length = n}) => E W q.1 q.2.1 q.2.2) ≤
      prob (fun q : K × Fn w A.blockBytes => E W q.1 q.2 (hmacTag (N := N) A iv H.hb H.nw H.hk H.hnb q.2 ⟨salt, hs⟩ ⟨ikm q.1, hi q.1⟩)) + _ := fun W =>
    ext_near H iv ⟨salt, hs⟩ (fun k => ⟨ikm k, hi k⟩) (fun k t => treeE (N := N') iv H'.hb H'.nw H'.hk H'.hnb t (Y k t.1)) (p + 4 * c)
      (fun k t => treeE_within t (Y k t.1) p c v (hY k _ t.2)) (E W) (hE W)
  have n1 := near W
  have n2 := near (fun k r => ¬ W k r)
  have e : ∀ W : K → Option R → Prop, prob (fun q : K × Fn w A.blockBytes => W q.1 ((Hkdf.extract (ShaWith.implFunction P (fn q.2) iv n P.blockSize) m salt (ikm q.1) buf).bind fun prk =>
        MacGame.play (hmacWorld (fun f => ShaWith.implFunction P f iv n P.blockSize) m (fn q.2) prk) (Y q.1 prk))) =
      prob (fun q : K × Fn w A.blockBytes => E W q.1 q.2 (hmacTag (N := N) A iv H.hb H.nw H.hk H.hnb q.2 ⟨salt, hs⟩ ⟨ikm q.1, hi q.1⟩)) := by
    intro W
    congr 1
    funext q
    rw [hreal q]
    rfl
  rw [e W]
  have t1 : prob (fun q : K × (Fn w A.blockBytes × {d : Bytes // d.length = n}) => E (fun k r => ¬ W k r) q.1 q.2.1 q.2.2) =
      1 - prob (fun q : K × (Fn w A.blockBytes × {d : Bytes // d.length = n}) => E W q.1 q.2.1 q.2.2) := by
    have : Nonempty {d : Bytes // d.length = n} := ⟨⟨zeros n, by simp⟩⟩
    exact prob_not _
  have t2 : prob (fun q : K × Fn w A.blockBytes => E (fun k r => ¬ W k r) q.1 q.2 (hmacTag (N := N) A iv H.hb H.nw H.hk H.hnb q.2 ⟨salt, hs⟩ ⟨ikm q.1, hi q.1⟩)) =
      1 - prob (fun q : K × Fn w A.blockBytes => E W q.1 q.2 (hmacTag (N := N) A iv H.hb H.nw H.hk H.hnb q.2 ⟨salt, hs⟩ ⟨ikm q.1, hi q.1⟩)) := prob_not _
  rw [t1, t2] at n2
  show |_ - prob (fun q : K × (Fn w A.blockBytes × {d : Bytes // d.length = n}) => E W q.1 q.2.1 q.2.2)| ≤ _
  rw [abs_le]
  constructor <;> linarith

theorem ext_general (H : Fits P A n sl N) (H' : Fits P A n n N') (iv : Oct w) (m : Mode) (salt : Bytes) (hs : salt.length = sl) (ikm : K → Bytes)
    (hi : ∀ k, (ikm k).length ≤ N) (δ : ℚ) (hδ : ∀ x, prob (fun k => ikm k = x) ≤ δ) (buf : Bytes) (hbuf : buf.length = n)
    (Y : Bytes → MacGame.Attacker w R) (p c v : Nat) (hY : ∀ t, t.length = n → (Y t).Within A.blockBytes N' (cost A) p c v) (W : Option R → Prop) :
    |prob (fun q : K × Fn w A.blockBytes => W ((Hkdf.extract (ShaWith.implFunction P (fn q.2) iv n P.blockSize) m salt (ikm q.1) buf).bind fun prk =>
        MacGame.play (hmacWorld (fun f => ShaWith.implFunction P f iv n P.blockSize) m (fn q.2) prk) (Y prk))) -
      prob (fun q : Fn w A.blockBytes × {d : Bytes // d.length = n} =>
        W (MacGame.play (hmacWorld (fun f => ShaWith.implFunction P f iv n P.blockSize) m (fn q.1) q.2.1) (Y q.2.1)))| ≤
    extractError δ n (p + 4 * c) (cost A N) := by
  have h1 := ext_general_hit H H' iv m salt hs ikm hi buf hbuf (fun _ => Y) p c v (fun _ => hY) (fun _ => W)
  have h2 := absorbs_le H iv ⟨salt, hs⟩ (fun k => ⟨ikm k, hi k⟩) δ hδ (fun t => treeE (N := N') iv H'.hb H'.nw H'.hk H'.hnb t (Y t.1)) (p + 4 * c)
    (fun t => treeE_within t (Y t.1) p c v (hY _ t.2))
  rw [prob_snd (α := K) (P := fun q : Fn w A.blockBytes × {d : Bytes // d.length = n} =>
        W (MacGame.play (hmacWorld (fun f => ShaWith.implFunction P f iv n P.blockSize) m (fn q.1) q.2.1) (Y q.2.1)))] at h1
  refine h1.trans (le_trans (add_le_add h2 (le_refl _)) (le_of_eq ?_))
  unfold extractError extractSlack
  push_cast
  ring

end General

/-! ## The theorems -/

section Theorems
variable {K : Type} [Finite K] [Nonempty K] {R : Type}

/-- A prober as an attacker that asks for no tags. -/
def ofProber {w : Nat} : KdfGame.Prober w R → MacGame.Attacker w R
  | .stop r => .stop r
  | .compress H b next => .compress H b fun y => ofProber (next y)

theorem play_ofProber {w : Nat} (W : MacGame.World w) (X : KdfGame.Prober w R) : MacGame.play W (ofProber X) = some (X.run W.compress) := by
  induction X with
  | stop r => rfl
  | compress H b next ih => exact ih _

theorem ofProber_within {w B N : Nat} {cost : Nat → Nat} (X : KdfGame.Prober w R) (p : Nat) (h : X.Within B p) : (ofProber X).Within B N cost p 0 0 := by
  induction X generalizing p with
  | stop r => trivial
  | compress H b next ih =>
    obtain ⟨h1, p, rfl, h⟩ := h
    exact ⟨h1, p, rfl, fun y => ih y _ (h y)⟩

theorem ext_variant (v : Variant) (m : Mode) (salt : Bytes) (hs : salt.length ≤ v.block) (ikm : K → Bytes) (N N' : Nat) (hi : ∀ k, (ikm k).length ≤ N)
    (hN : v.block + N < 2 ^ 61) (hN' : v.block + N' < 2 ^ 61) (δ : ℚ) (hδ : ∀ x, prob (fun k => ikm k = x) ≤ δ) (buf : Bytes) (hbuf : buf.length = v.size)
    (Y : Bytes → MacGame.Attacker v.width R) (p c t : Nat) (hY : ∀ d, d.length = v.size → (Y d).Within v.block N' v.blocks p c t) (W : Option R → Prop) :
    |prob (fun q : K × Fn v.width v.block => W ((Hkdf.extract (v.codeWith (fn q.2)) m salt (ikm q.1) buf).bind fun prk =>
        MacGame.play (hmacWorld v.codeWith m (fn q.2) prk) (Y prk))) -
      prob (fun q : Fn v.width v.block × {d : Bytes // d.length = v.size} => W (MacGame.play (hmacWorld v.codeWith m (fn q.1) q.2.1) (Y q.2.1)))| ≤
    extractError δ v.size (p + 4 * c) (v.blocks N) := by
  cases v
  · exact ext_general (P := Model.Sha2.P256) (A := alg256) (n := 28) (N := N) (N' := N')
      ⟨Sha2.matches256, by decide, by decide, by decide, by decide, by decide, by decide, by decide, by decide, by decide, hs, hN⟩
      ⟨Sha2.matches256, by decide, by decide, by decide, by decide, by decide, by decide, by decide, by decide, by decide, by decide, hN'⟩
      Model.Sha2.iv224 m salt rfl ikm hi δ hδ buf hbuf Y p c t hY W
  · exact ext_general (P := Model.Sha2.P256) (A := alg256) (n := 32) (N := N) (N' := N')
      ⟨Sha2.matches256, by decide, by decide, by decide, by decide, by decide, by decide, by decide, by decide, by decide, hs, hN⟩
      ⟨Sha2.matches256, by decide, by decide, by decide, by decide, by decide, by decide, by decide, by decide, by decide, by decide, hN'⟩
      Model.Sha2.iv256 m salt rfl ikm hi δ hδ buf hbuf Y p c t hY W
  · exact ext_general (P := Model.Sha2.P512) (A := alg512) (n := 48) (N := N) (N' := N')
      ⟨Sha2.matches512, by decide, by decide, by decide, by decide, by decide, by decide, by decide, by decide, by decide, hs, hN⟩
      ⟨Sha2.matches512, by decide, by decide, by decide, by decide, by decide, by decide, by decide, by decide, by decide, by decide, hN'⟩
      Model.Sha2.iv384 m salt rfl ikm hi δ hδ buf hbuf Y p c t hY W
  · exact ext_general (P := Model.Sha2.P512) (A := alg512) (n := 64) (N := N) (N' := N')
      ⟨Sha2.matches512, by decide, by decide, by decide, by decide, by decide, by decide, by decide, by decide, by decide, hs, hN⟩
      ⟨Sha2.matches512, by decide, by decide, by decide, by decide, by decide, by decide, by decide, by decide, by decide, by decide, hN'⟩
      Model.Sha2.iv512 m salt rfl ikm hi δ hδ buf hbuf Y p c t hY W

/-- **`extract` turns any secret that is hard to guess into a uniform key when the compression function is random.** The secret `ikm` has any distribution in
which no value has a probability above `δ`; the salt is known. The attacker gets the output of `extract` and evaluates the compression function at most `p` times.
It can hardly tell the output from a uniform string that has nothing to do with the compression function. -/
theorem C106_extract (v : Variant) (m : Mode) (salt : Bytes) (hs : salt.length ≤ v.block) (ikm : K → Bytes) (N : Nat) (hi : ∀ k, (ikm k).length ≤ N)
    (hN : v.block + N < 2 ^ 61) (δ : ℚ) (hδ : ∀ x, prob (fun k => ikm k = x) ≤ δ) (prk : Bytes) (hprk : prk.length = v.size)
    (X : Bytes → KdfGame.Prober v.width R) (p : Nat) (hX : ∀ d, d.length = v.size → (X d).Within v.block p) (W : Option R → Prop) :
    |prob (fun q : K × Fn v.width v.block => W ((Hkdf.extract (v.codeWith (fn q.2)) m salt (ikm q.1) prk).map fun d => (X d).run (fn q.2))) -
      prob (fun q : Fn v.width v.block × {d : Bytes // d.length = v.size} => W (some ((X q.2.1).run (fn q.1))))| ≤
    (p + 2) * δ + ((p + 2) * (p + 3) + v.blocks N * (v.blocks N + 2 * p + 5)) / 256 ^ v.size := by
  have h := ext_variant v m salt hs ikm N N hi hN hN δ hδ prk hprk (fun d => ofProber (X d)) p 0 0 (fun d hd => ofProber_within _ _ (hX d hd)) W
  simp only [play_ofProber] at h
  have e : ∀ q : K × Fn v.width v.block, ((Hkdf.extract (v.codeWith (fn q.2)) m salt (ikm q.1) prk).map fun d => (X d).run (fn q.2)) =
      (Hkdf.extract (v.codeWith (fn q.2)) m salt (ikm q.1) prk).bind fun d => some ((X d).run (hmacWorld v.codeWith m (fn q.2) d).compress) := by
    intro q
    cases Hkdf.extract (v.codeWith (fn q.2)) m salt (ikm q.1) prk <;> rfl
  simp only [e]
  exact h

/-- **HKDF as a whole.** The input keying material is any secret that is hard to guess, the salt is known. `extract` is called once, and then the attacker
has keys derived by `expand` for contexts that it chooses, at a cost of at most `c`, and evaluates the compression function at most `p` times. It can hardly tell these
keys from the first bytes of the values of a random function of the context that has nothing to do with the compression function. -/
theorem C106_hkdf (v : Variant) (m : Mode) (salt : Bytes) (hs : salt.length ≤ v.block) (ikm : K → Bytes) (N I L : Nat) (hi : ∀ k, (ikm k).length ≤ N)
    (hN : v.block + N < 2 ^ 61) (hI : v.block + (v.size + I + 1) < 2 ^ 61) (hL : L ≤ 255 * v.size) (hm : m = .debug → L < 254 * v.size) (δ : ℚ)
    (hδ : ∀ x, prob (fun k => ikm k = x) ≤ δ) (prk : Bytes) (hprk : prk.length = v.size) (X : KdfGame.Attacker v.width R) (p c : Nat)
    (hX : X.Within v.block I L v.expandBlocks p c) (W : Option R → Prop) :
    |prob (fun q : K × Fn v.width v.block => W ((Hkdf.extract (v.codeWith (fn q.2)) m salt (ikm q.1) prk).bind fun d =>
        KdfGame.play (hkdfWorld v.codeWith m (fn q.2) d) X)) -
      prob (fun q : Fn v.width v.block × Keyed I (255 * v.size) => W (KdfGame.play (idealKdf (fn q.1) q.2) X))| ≤
    extractError δ v.size (p + 4 * c) (v.blocks N) + (2 * p / 256 ^ v.size + (c + 2) * (c + p + 3) / 256 ^ v.size) := by
  have hsb : v.size ≤ v.block := by cases v <;> decide
  have hmono : Monotone v.blocks := fun a b h => by
    unfold Variant.blocks
    exact Nat.add_le_add_right (Nat.div_le_div_right (by omega)) _
  have h1 := ext_variant v m salt hs ikm N (v.size + I + 1) hi hN hI δ hδ prk hprk (fun _ => viaTags v.size X) p c 0
    (fun d _ => viaTags_within hmono (le_refl _) X p c hX) W
  have h2 := C105_expand_prf v m v.size I L (le_refl _) hsb hI hL hm X p c hX W
  rw [← prob_equiv (Equiv.prodComm (Fn v.width v.block) {k : Bytes // k.length = v.size})] at h2
  have e1 : ∀ q : K × Fn v.width v.block, ((Hkdf.extract (v.codeWith (fn q.2)) m salt (ikm q.1) prk).bind fun d =>
        KdfGame.play (hkdfWorld v.codeWith m (fn q.2) d) X) = (Hkdf.extract (v.codeWith (fn q.2)) m salt (ikm q.1) prk).bind fun d =>
        MacGame.play (hmacWorld v.codeWith m (fn q.2) d) (viaTags v.size X) := by
    intro q
    cases hd : Hkdf.extract (v.codeWith (fn q.2)) m salt (ikm q.1) prk with
    | none => rfl
    | some d =>
      have hl : d.length = v.size := by
        obtain ⟨hash, Rl, L', hd', hb⟩ := codeWith_lawful v (fn q.2)
        have := hi q.1
        rw [extract_spec L' m salt (ikm q.1) prk (by omega) (by rw [hb]; omega), if_pos (by rw [hd']; exact hprk)] at hd
        rw [← Option.some.inj hd, hmac_length L', hd']
      exact (real_expand v m (fn q.2) d I L (by omega) (by omega) hI hL hm X p c hX).symm
  have e2 : ∀ q : Fn v.width v.block × {d : Bytes // d.length = v.size}, MacGame.play (hmacWorld v.codeWith m (fn q.1) q.2.1) (viaTags v.size X) =
      KdfGame.play (hkdfWorld v.codeWith m (fn q.1) q.2.1) X := by
    intro q
    have := q.2.2
    exact real_expand v m (fn q.1) q.2.1 I L (by omega) (by omega) hI hL hm X p c hX
  simp only [e1]
  simp only [e2] at h1
  exact (abs_sub_le _ _ _).trans (add_le_add h1 h2)

end Theorems

/-- With the crate's own compression function this is the crate's HKDF. -/
theorem C106_code (v : Variant) (m : Mode) (salt ikm prk info okm : Bytes) :
    ((Hkdf.extract (v.codeWith v.compression) m salt ikm prk).bind fun d => (hkdfWorld v.codeWith m v.compression d).derive info okm) =
    (Hkdf.extract v.code m salt ikm prk).bind fun d => Hkdf.expand v.code m d info okm := by
  unfold hkdfWorld
  rw [C104_code]

/-! ## Concrete cases -/

/-- The secret is one of the 256 ^ 16 keys of 16 bytes, followed by a public string; one evaluation of the compression function; 4 blocks. -/
example (m : Mode) (pub : Bytes) (hp : pub.length ≤ 80) (W : Option Bool → Prop) :
    |prob (fun q : {k : Bytes // k.length = 16} × Fn 32 64 => W ((Hkdf.extract (Variant.sha256.codeWith (fn q.2)) m [1, 2] (q.1.1 ++ pub) (zeros 32)).bind fun d =>
        KdfGame.play (hkdfWorld Variant.sha256.codeWith m (fn q.2) d) tryKey)) -
      prob (fun q : Fn 32 64 × Keyed 1 (255 * 32) => W (KdfGame.play (idealKdf (fn q.1) q.2) tryKey))| ≤ 1 / 2 ^ 124 := by
  refine (C106_hkdf .sha256 m [1, 2] (by decide) (fun k : {k : Bytes // k.length = 16} => k.1 ++ pub) 96 1 42 (fun k => ?_) (by decide) (by decide) (by decide)
    (fun _ => by decide) (1 / 256 ^ 16) (fun x => ?_) (zeros 32) (by decide) tryKey 1 3 tryKey_within W).trans ?_
  · have := k.2
    simp; omega
  · unfold prob
    rw [card_digest]
    push_cast
    refine div_le_div_of_nonneg_right ?_ (by positivity)
    have : {k : {k : Bytes // k.length = 16} | k.1 ++ pub = x}.ncard ≤ 1 := by
      rw [Set.ncard_le_one_iff]
      intro a b ha hb
      exact Subtype.ext (List.append_cancel_right ((show a.1 ++ pub = x from ha).trans (show b.1 ++ pub = x from hb).symm))
    exact_mod_cast this
  · have h1 : Variant.sha256.size = 32 := rfl
    have h2 : Variant.sha256.blocks 96 = 2 := rfl
    rw [h1, h2]
    unfold extractError
    norm_num

/-! ## Further concrete cases -/

/-- A uniformly random key of 16 bytes takes any value with probability at most `1 / 256 ^ 16`. -/
theorem uniformKey16 (x : Bytes) : prob (fun k : {k : Bytes // k.length = 16} => k.1 = x) ≤ 1 / 256 ^ 16 := by
  unfold prob
  rw [card_digest]
  push_cast
  refine div_le_div_of_nonneg_right ?_ (by positivity)
  have : {k : {k : Bytes // k.length = 16} | k.1 = x}.ncard ≤ 1 := by
    rw [Set.ncard_le_one_iff]
    intro a b ha hb
    exact Subtype.ext ((show a.1 = x from ha).trans (show b.1 = x from hb).symm)
  exact_mod_cast this

example (m : Mode) (W : Option Bool → Prop) :
    |prob (fun q : {k : Bytes // k.length = 16} × Fn 32 64 => W ((Hkdf.extract (Variant.sha256.codeWith (fn q.2)) m [] q.1.1 (zeros 32)).map
        fun d => (KdfGame.Prober.stop (d.take 1 == [0]) : KdfGame.Prober 32 Bool).run (fn q.2))) -
      prob (fun q : Fn 32 64 × {d : Bytes // d.length = 32} => W (some ((KdfGame.Prober.stop (q.2.1.take 1 == [0]) : KdfGame.Prober 32 Bool).run (fn q.1))))| ≤
    ((0 : Nat) + 2) * (1 / 256 ^ 16) + (((0 : Nat) + 2) * ((0 : Nat) + 3) + Variant.sha256.blocks 16 * (Variant.sha256.blocks 16 + 2 * (0 : Nat) + 5)) / 256 ^ 32 :=
  C106_extract .sha256 m [] (by simp) (fun k : {k : Bytes // k.length = 16} => k.1) 16 (fun k => le_of_eq k.2) (by simp [Variant.block]) _ uniformKey16
    (zeros 32) (by simp [Variant.size]) (fun d => .stop (d.take 1 == [0])) 0 (fun _ _ => trivial) W

example (v : Variant) := C106_code v .debug [1] [2] (zeros v.size) [3] (zeros 5)

end CryptoPure.Props
