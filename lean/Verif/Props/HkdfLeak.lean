import Verif.Props.HkdfFull

/-! # C107: HKDF from a secret about which the attacker knows something

As in C106; the attacker knows some function of the secret, for example public keys. -/

namespace CryptoPure.Props
open CryptoPure.Model Spec.Sha2 Proofs Proofs.HmacSha Proofs.HmacIdeal Switch
open Game hiding play forges

/-! ## What the attacker itself evaluates -/

section Own
variable {w : Nat} {A : Alg w} {iv : Oct w} {n N : Nat} {hb : A.lenBytes + 1 ≤ A.blockBytes} {hn : n ≤ 8 * (w / 8)} {hk : n ≤ A.blockBytes}
  {hnb : A.lenBytes + 1 + n ≤ A.blockBytes} {R : Type}

/-- As `KdfGame.Attacker.logged`. -/
def macLog : List Bytes → MacGame.Attacker w R → MacGame.Attacker w (List Bytes)
  | seen, .stop _ => .stop seen
  | seen, .compress H b next => .compress H b fun y => macLog (b :: seen) (next y)
  | seen, .tag M next => .tag M fun y => macLog seen (next y)
  | seen, .verify M t next => .verify M t fun y => macLog seen (next y)

theorem macLog_askTags (seen : List Bytes) (info prev : Bytes) (i k : Nat) (next : Bytes → MacGame.Attacker w R) :
    macLog seen (askTags n info prev i k next) = askTags n info prev i k fun r => macLog seen (next r) := by
  induction k generalizing prev i next with
  | zero => rfl
  | succ k ih =>
    rw [askTags, askTags, macLog]
    congr 1
    funext t
    exact ih _ _ _

theorem macLog_viaTags (seen : List Bytes) (X : KdfGame.Attacker w R) : viaTags n (X.logged seen) = macLog seen (viaTags n X) := by
  induction X generalizing seen with
  | stop r => rfl
  | compress H b next ih =>
    rw [KdfGame.Attacker.logged, viaTags, viaTags, macLog]
    congr 1
    funext y
    exact ih y _
  | derive info okm next ih =>
    rw [KdfGame.Attacker.logged, viaTags, viaTags, macLog_askTags]
    congr 1
    funext r
    exact ih _ _

theorem logged_within {B I L : Nat} {cost : Nat → Nat → Nat} (X : KdfGame.Attacker w R) (seen : List Bytes) (p c : Nat) (h : X.Within B I L cost p c) :
    (X.logged seen).Within B I L cost p c := by
  induction X generalizing seen p c with
  | stop r => trivial
  | compress H b next ih =>
    obtain ⟨h1, p, rfl, h⟩ := h
    exact ⟨h1, p, rfl, fun y => ih y _ _ _ (h y)⟩
  | derive info okm next ih =>
    obtain ⟨h1, h2, c, rfl, h⟩ := h
    exact ⟨h1, h2, c, rfl, fun y => ih y _ _ _ (h y)⟩

theorem macLog_seen (f : Oct w → Bytes → Oct w) (G : Keyed N n) (X : MacGame.Attacker w R) (seen : List Bytes) :
    ∃ l, MacGame.play (idealWorld f G) (macLog seen X) = some l ∧ ∀ b ∈ seen, b ∈ l := by
  induction X generalizing seen with
  | stop r => exact ⟨seen, rfl, fun b hb => hb⟩
  | compress H b next ih =>
    obtain ⟨l, h1, h2⟩ := ih (f H b) (b :: seen)
    exact ⟨l, h1, fun x hx => h2 x (List.mem_cons_of_mem _ hx)⟩
  | tag M next ih => exact ih _ _
  | verify M t next ih => exact ih _ _

theorem tagE_own (F : Fn w A.blockBytes) (t : {d : Bytes // d.length = n}) (bi : Blk A.blockBytes) (M : Bytes)
    (next : Bytes → Eval (Oct w × Blk A.blockBytes) (Oct w)) (Q : List (Oct w × Blk A.blockBytes)) (hki : (iv, bi) ∈ Q)
    (hne : ∀ x ∈ Q, F x ≠ iv) (hinj : ∀ x ∈ Q, ∀ y ∈ Q, F x = F y → x = y)
    (hQ : ∀ x ∈ (tagE (N := N) iv hb hn hk hnb t M next).args F, x ∈ Q) (x : Oct w × Blk A.blockBytes)
    (hx : x ∈ (tagE (N := N) iv hb hn hk hnb t M next).args F) (hs : x.1 = F (iv, bi)) :
    (keyBlock hk 0x36 t = bi ∨ keyBlock hk 0x5c t = bi) ∨ x ∈ (next ((hmacTag (N := N) A iv hb hn hk hnb F t).ask M)).args F := by
  unfold tagE at hx hQ
  unfold Keyed.ask
  by_cases hM : M.length ≤ N
  · rw [if_pos hM] at hx hQ
    rw [dif_pos hM]
    simp only [Eval.args, chainK_args, List.mem_cons, List.mem_append] at hx hQ
    have q1 := hQ _ (Or.inl rfl)
    have q2 := fun y hy => hQ y (Or.inr (Or.inl hy))
    have q3 := hQ _ (Or.inr (Or.inr (Or.inl rfl)))
    rcases hx with rfl | hx | rfl | rfl | hx
    · exact absurd hs.symm (hne _ hki)
    · left; left
      rcases calls_prev _ _ _ x hx with e | ⟨y, hy, e⟩
      · exact congrArg Prod.snd (hinj _ q1 _ hki (e.symm.trans hs))
      · have := hinj _ (q2 y hy) _ hki (e.symm.trans hs)
        subst this
        rcases calls_prev _ _ _ _ hy with e | ⟨z, hz, e⟩
        · exact absurd e.symm (hne _ q1)
        · exact absurd e.symm (hne _ (q2 z hz))
    · exact absurd hs.symm (hne _ hki)
    · left; right
      exact congrArg Prod.snd (hinj _ q3 _ hki hs)
    · exact Or.inr hx
  · rw [if_neg hM] at hx
    rw [dif_neg hM]
    exact Or.inr hx

theorem treeE_own (F : Fn w A.blockBytes) (t : {d : Bytes // d.length = n}) (bi : Blk A.blockBytes) (Q : List (Oct w × Blk A.blockBytes))
    (hki : (iv, bi) ∈ Q) (hne : ∀ x ∈ Q, F x ≠ iv) (hinj : ∀ x ∈ Q, ∀ y ∈ Q, F x = F y → x = y) (X : MacGame.Attacker w R) (seen : List Bytes)
    (hQ : ∀ x ∈ (treeE (N := N) iv hb hn hk hnb t X).args F, x ∈ Q) (x : Oct w × Blk A.blockBytes)
    (hx : x ∈ (treeE (N := N) iv hb hn hk hnb t X).args F) (hs : x.1 = F (iv, bi)) :
    (keyBlock hk 0x36 t = bi ∨ keyBlock hk 0x5c t = bi) ∨
      ∃ l, MacGame.play (idealWorld (fn F) (hmacTag (N := N) A iv hb hn hk hnb F t)) (macLog seen X) = some l ∧ x.2.1 ∈ l := by
  induction X generalizing seen with
  | stop r => simp [treeE, Eval.args] at hx
  | compress H b next ih =>
    rw [treeE] at hx hQ
    by_cases h : b.length = A.blockBytes
    · rw [dif_pos h] at hx hQ
      simp only [Eval.args, List.mem_cons] at hx hQ
      have e : fn F H b = F (H, ⟨b, h⟩) := by unfold fn; rw [dif_pos h]
      rcases hx with rfl | hx
      · obtain ⟨l, h1, h2⟩ := macLog_seen (fn F) (hmacTag (N := N) A iv hb hn hk hnb F t) (next (fn F H b)) (b :: seen)
        exact Or.inr ⟨l, h1, h2 _ (List.mem_cons_self ..)⟩
      · have := ih (F (H, ⟨b, h⟩)) (b :: seen) (fun y hy => hQ y (Or.inr hy)) hx
        rw [← e] at this
        exact this
    · rw [dif_neg h] at hx hQ
      have e : fn F H b = H := by unfold fn; rw [dif_neg h]
      have := ih H (b :: seen) hQ hx
      rcases this with h | ⟨l, h1, h2⟩
      · exact Or.inl h
      · refine Or.inr ⟨l, ?_, h2⟩
        show MacGame.play _ (macLog (b :: seen) (next (fn F H b))) = _
        rw [e]; exact h1
  | tag M next ih =>
    rw [treeE] at hx hQ
    rcases tagE_own F t bi M _ Q hki hne hinj hQ x hx hs with h | h
    · exact Or.inl h
    · exact ih _ seen (fun y hy => hQ y (tagE_args F t M _ y hy)) h
  | verify M s next ih =>
    rw [treeE] at hx hQ
    rcases tagE_own F t bi M _ Q hki hne hinj hQ x hx hs with h | h
    · exact Or.inl h
    · exact ih _ seen (fun y hy => hQ y (tagE_args F t M _ y hy)) h

end Own

section General
variable {w : Nat} {P : Model.Sha2.Params w} {A : Alg w} {R : Type} {n sl N N' : Nat} {K : Type} [Finite K] [Nonempty K]

theorem prob_keyBlock {B n : Nat} (h : n ≤ B) (pad : U8) (bi : Blk B) :
    prob (fun t : {d : Bytes // d.length = n} => keyBlock h pad t = bi) ≤ 1 / 256 ^ n := by
  unfold prob
  rw [card_digest]
  push_cast
  refine div_le_div_of_nonneg_right ?_ (by positivity)
  have : {t : {d : Bytes // d.length = n} | keyBlock h pad t = bi}.ncard ≤ 1 := by
    rw [Set.ncard_le_one_iff]
    intro a b ha hb
    exact keyBlock_inj h pad ((show keyBlock h pad a = bi from ha).trans (show keyBlock h pad b = bi from hb).symm)
  exact_mod_cast this

/-- An attacker absorbs a short secret only by compressing it itself. -/
theorem absorbs_own (H : Fits P A n sl N) (H' : Fits P A n n N') (iv : Oct w) (salt : {k : Bytes // k.length = sl}) (ikm : K → {x : Bytes // x.length ≤ N})
    (hN : A.lenBytes + 1 + N ≤ A.blockBytes) (Y : K → MacGame.Attacker w R) (k : K) (F : Fn w A.blockBytes) (t : {d : Bytes // d.length = n})
    (h : Absorbs H iv salt ikm (fun k t => treeE (N := N') iv H'.hb H'.nw H'.hk H'.hnb t (Y k)) k F t) :
    (keyBlock H'.hk 0x36 t = keyBlock H.hk 0x36 salt ∨ keyBlock H'.hk 0x5c t = keyBlock H.hk 0x36 salt) ∨
      ∃ l, MacGame.play (idealWorld (fn F) (hmacTag (N := N') A iv H'.hb H'.nw H'.hk H'.hnb F t)) (macLog [] (Y k)) = some l ∧ ∃ b ∈ l, (ikm k).1 <+: b := by
  obtain ⟨hc, hall⟩ := h
  have hl := (ikm k).2
  have eb : (fun k => blocksOf A H.hb (ikm k).1) k = [lastBlock A ⟨(ikm k).1, rfl⟩ (by omega)] := blocksOf_digest A H.hb ⟨(ikm k).1, rfl⟩ (by omega)
  rw [eb] at hall
  have hm := hall _ (List.mem_cons_self ..)
  have hinj : ∀ x ∈ _, ∀ y ∈ _, F x = F y → x = y := fun x hx y hy e => hc.inj x hx y hy (by rw [e])
  have hm' := hm
  simp only [ExtractIdeal.full, Eval.args, List.mem_cons] at hm
  rcases hm with e | e | hm
  · exact absurd (congrArg Prod.fst e) (hc.ne _ hc.ki)
  · exact absurd (congrArg Prod.fst e) (hc.ne _ hc.ki)
  · rcases treeE_own F t _ _ hc.ki hc.ne hinj (Y k) [] (fun x hx => by simp [ExtractIdeal.full, Eval.args, hx]) _ hm rfl with h | ⟨l, h1, h2⟩
    · exact Or.inl h
    · exact Or.inr ⟨l, h1, _, h2, List.prefix_append _ _⟩

theorem leak_general (H : Fits P A n sl N) (H' : Fits P A n n N') (iv : Oct w) (m : Mode) (salt : Bytes) (hs : salt.length = sl) (ikm : K → Bytes)
    (hi : ∀ k, (ikm k).length ≤ N) (hN : A.lenBytes + 1 + N ≤ A.blockBytes) (buf : Bytes) (hbuf : buf.length = n)
    (Y : K → MacGame.Attacker w R) (p c v : Nat) (hY : ∀ k, (Y k).Within A.blockBytes N' (cost A) p c v)
    (hY' : ∀ k, (macLog [] (Y k)).Within A.blockBytes N' (cost A) p c v) (W : K → Option R → Prop) :
    |prob (fun q : K × Fn w A.blockBytes => W q.1 ((Hkdf.extract (ShaWith.implFunction P (fn q.2) iv n P.blockSize) m salt (ikm q.1) buf).bind fun prk =>
        MacGame.play (hmacWorld (fun f => ShaWith.implFunction P f iv n P.blockSize) m (fn q.2) prk) (Y q.1))) -
      prob (fun q : K × (Fn w A.blockBytes × {d : Bytes // d.length = n}) =>
        W q.1 (MacGame.play (hmacWorld (fun f => ShaWith.implFunction P f iv n P.blockSize) m (fn q.2.1) q.2.2.1) (Y q.1)))| ≤
    prob (fun q : K × (Fn w A.blockBytes × {d : Bytes // d.length = n}) =>
      ∃ l, MacGame.play (hmacWorld (fun f => ShaWith.implFunction P f iv n P.blockSize) m (fn q.2.1) q.2.2.1) (macLog [] (Y q.1)) = some l ∧
        ∃ b ∈ l, ikm q.1 <+: b) + 2 / 256 ^ n + extractSlack n (p + 4 * c) (cost A N) := by
  refine (ext_general_hit H H' iv m salt hs ikm hi buf hbuf (fun k _ => Y k) p c v (fun k _ _ => hY k) W).trans (add_le_add ?_ (le_refl _))
  have hkb : ∀ pad, prob (fun q : K × (Fn w A.blockBytes × {d : Bytes // d.length = n}) =>
      keyBlock H'.hk pad q.2.2 = keyBlock H.hk 0x36 ⟨salt, hs⟩) ≤ 1 / 256 ^ n := by
    intro pad
    rw [prob_snd (α := K) (P := fun q : Fn w A.blockBytes × {d : Bytes // d.length = n} => keyBlock H'.hk pad q.2 = keyBlock H.hk 0x36 ⟨salt, hs⟩),
      prob_snd (α := Fn w A.blockBytes) (P := fun q : {d : Bytes // d.length = n} => keyBlock H'.hk pad q = keyBlock H.hk 0x36 ⟨salt, hs⟩)]
    exact prob_keyBlock H'.hk pad _
  refine le_trans (prob_mono fun q hq => absorbs_own H H' iv ⟨salt, hs⟩ (fun k => ⟨ikm k, hi k⟩) hN Y q.1 q.2.1 q.2.2 hq) ?_
  refine le_trans (prob_or _ _) ?_
  rw [add_comm]
  refine add_le_add (le_of_eq ?_) (le_trans (prob_or _ _) (le_trans (add_le_add (hkb _) (hkb _)) (le_of_eq (by ring))))
  congr 1
  funext q
  rw [(real_eq H' iv m q.2.1 q.2.2 (cost A) (macLog [] (Y q.1)) p c v (hY' q.1)).1]

end General

/-! ## The theorems -/

section Theorems
variable {K : Type} [Finite K] [Nonempty K] {R : Type}

/-- The longest input that still fits into one block with the padding. -/
def Variant.room (v : Variant) : Nat := match v with
  | .sha224 | .sha256 => 55
  | .sha384 | .sha512 => 111

theorem leak_variant (v : Variant) (m : Mode) (salt : Bytes) (hs : salt.length ≤ v.block) (ikm : K → Bytes) (N' : Nat) (hi : ∀ k, (ikm k).length ≤ v.room)
    (hN' : v.block + N' < 2 ^ 61) (buf : Bytes) (hbuf : buf.length = v.size) (Y : K → MacGame.Attacker v.width R) (p c t : Nat)
    (hY : ∀ k, (Y k).Within v.block N' v.blocks p c t) (hY' : ∀ k, (macLog [] (Y k)).Within v.block N' v.blocks p c t) (W : K → Option R → Prop) :
    |prob (fun q : K × Fn v.width v.block => W q.1 ((Hkdf.extract (v.codeWith (fn q.2)) m salt (ikm q.1) buf).bind fun prk =>
        MacGame.play (hmacWorld v.codeWith m (fn q.2) prk) (Y q.1))) -
      prob (fun q : K × (Fn v.width v.block × {d : Bytes // d.length = v.size}) =>
        W q.1 (MacGame.play (hmacWorld v.codeWith m (fn q.2.1) q.2.2.1) (Y q.1)))| ≤
    prob (fun q : K × (Fn v.width v.block × {d : Bytes // d.length = v.size}) =>
      ∃ l, MacGame.play (hmacWorld v.codeWith m (fn q.2.1) q.2.2.1) (macLog [] (Y q.1)) = some l ∧ ∃ b ∈ l, ikm q.1 <+: b) + 2 / 256 ^ v.size +
      extractSlack v.size (p + 4 * c) 1 := by
  cases v
  · exact leak_general (P := Model.Sha2.P256) (A := alg256) (n := 28) (N := 55) (N' := N')
      ⟨Sha2.matches256, by decide, by decide, by decide, by decide, by decide, by decide, by decide, by decide, by decide, hs, by decide⟩
      ⟨Sha2.matches256, by decide, by decide, by decide, by decide, by decide, by decide, by decide, by decide, by decide, by decide, hN'⟩
      Model.Sha2.iv224 m salt rfl ikm hi (by decide) buf hbuf Y p c t hY hY' W
  · exact leak_general (P := Model.Sha2.P256) (A := alg256) (n := 32) (N := 55) (N' := N')
      ⟨Sha2.matches256, by decide, by decide, by decide, by decide, by decide, by decide, by decide, by decide, by decide, hs, by decide⟩
      ⟨Sha2.matches256, by decide, by decide, by decide, by decide, by decide, by decide, by decide, by decide, by decide, by decide, hN'⟩
      Model.Sha2.iv256 m salt rfl ikm hi (by decide) buf hbuf Y p c t hY hY' W
  · exact leak_general (P := Model.Sha2.P512) (A := alg512) (n := 48) (N := 111) (N' := N')
      ⟨Sha2.matches512, by decide, by decide, by decide, by decide, by decide, by decide, by decide, by decide, by decide, hs, by decide⟩
      ⟨Sha2.matches512, by decide, by decide, by decide, by decide, by decide, by decide, by decide, by decide, by decide, by decide, hN'⟩
      Model.Sha2.iv384 m salt rfl ikm hi (by decide) buf hbuf Y p c t hY hY' W
  · exact leak_general (P := Model.Sha2.P512) (A := alg512) (n := 64) (N := 111) (N' := N')
      ⟨Sha2.matches512, by decide, by decide, by decide, by decide, by decide, by decide, by decide, by decide, by decide, hs, by decide⟩
      ⟨Sha2.matches512, by decide, by decide, by decide, by decide, by decide, by decide, by decide, by decide, by decide, by decide, hN'⟩
      Model.Sha2.iv512 m salt rfl ikm hi (by decide) buf hbuf Y p c t hY hY' W

omit [Nonempty K] in
theorem prob_avg {α β : Type} [Finite α] [Finite β] [Nonempty K] (P : K → α → Prop) (Q : K → β → Prop) (e : ℚ) (h : ∀ k, |prob (P k) - prob (Q k)| ≤ e) :
    |prob (fun q : K × α => P q.1 q.2) - prob (fun q : K × β => Q q.1 q.2)| ≤ e := by
  have : Fintype K := Fintype.ofFinite K
  rw [← prob_equiv (Equiv.prodComm α K), ← prob_equiv (Equiv.prodComm β K), prob_prod, prob_prod, div_sub_div_same, abs_div, ← Finset.sum_sub_distrib,
    Nat.abs_cast, div_le_iff₀ (by exact_mod_cast Fintype.card_pos)]
  refine (Finset.abs_sum_le_sum_abs _ _).trans ?_
  calc _ ≤ ∑ _b : K, e := Finset.sum_le_sum fun b _ => h b
    _ = _ := by rw [Finset.sum_const, Finset.card_univ, nsmul_eq_mul, mul_comm]

/-- The error that does not come from the secret. -/
def leakError (n p c : Nat) : ℚ :=
  2 / 256 ^ n + ((p + 4 * c + 2) * (p + 4 * c + 3) + (2 * p + 8 * c + 6)) / 256 ^ n + 2 * (2 * p / 256 ^ n + (c + 2) * (c + p + 3) / 256 ^ n)

/-- **HKDF from a short secret about which something is known.** `k` is uniformly random; `ikm k` is the input keying material, which fits into one block; the
attacker `X k` may know whatever the caller likes about `k`. `extract` is called once, and then the attacker has keys derived by `expand` for contexts that it
chooses, at a cost of at most `c`, and evaluates the compression function at most `p` times. It can hardly tell these keys from the first bytes of the values of a
random function of the context, unless it finds the secret: in the world with the random function, where nothing depends on the secret except what the attacker
knew from the start, it would evaluate the compression function on a block that starts with the secret. -/
theorem C107_leak (v : Variant) (m : Mode) (salt : Bytes) (hs : salt.length ≤ v.block) (ikm : K → Bytes) (I L : Nat) (hi : ∀ k, (ikm k).length ≤ v.room)
    (hI : v.block + (v.size + I + 1) < 2 ^ 61) (hL : L ≤ 255 * v.size) (hm : m = .debug → L < 254 * v.size) (prk : Bytes) (hprk : prk.length = v.size)
    (X : K → KdfGame.Attacker v.width R) (p c : Nat) (hX : ∀ k, (X k).Within v.block I L v.expandBlocks p c) (W : K → Option R → Prop) :
    |prob (fun q : K × Fn v.width v.block => W q.1 ((Hkdf.extract (v.codeWith (fn q.2)) m salt (ikm q.1) prk).bind fun d =>
        KdfGame.play (hkdfWorld v.codeWith m (fn q.2) d) (X q.1))) -
      prob (fun q : K × (Fn v.width v.block × Keyed I (255 * v.size)) => W q.1 (KdfGame.play (idealKdf (fn q.2.1) q.2.2) (X q.1)))| ≤
    prob (fun q : K × (Fn v.width v.block × Keyed I (255 * v.size)) => KdfGame.Compresses (idealKdf (fn q.2.1) q.2.2) (X q.1) (ikm q.1)) +
      leakError v.size p c := by
  have hsb : v.size ≤ v.block := by cases v <;> decide
  have hrb : v.room ≤ 128 := by cases v <;> decide
  have hbb : v.block ≤ 128 := by cases v <;> decide
  have hmono : Monotone v.blocks := fun a b h => by
    unfold Variant.blocks
    exact Nat.add_le_add_right (Nat.div_le_div_right (by omega)) _
  have hw : ∀ k, (viaTags v.size (X k)).Within v.block (v.size + I + 1) v.blocks p c 0 := fun k => viaTags_within hmono (le_refl _) (X k) p c (hX k)
  have hw' : ∀ k, (macLog [] (viaTags v.size (X k))).Within v.block (v.size + I + 1) v.blocks p c 0 := fun k => by
    rw [← macLog_viaTags]
    exact viaTags_within hmono (le_refl _) _ p c (logged_within _ _ _ _ (hX k))
  have h1 := leak_variant v m salt hs ikm (v.size + I + 1) hi hI prk hprk (fun k => viaTags v.size (X k)) p c 0 hw hw' W
  have prf : ∀ {R : Type} (X : K → KdfGame.Attacker v.width R) (_ : ∀ k, (X k).Within v.block I L v.expandBlocks p c) (W : K → Option R → Prop),
      |prob (fun q : K × (Fn v.width v.block × {d : Bytes // d.length = v.size}) => W q.1 (KdfGame.play (hkdfWorld v.codeWith m (fn q.2.1) q.2.2.1) (X q.1))) -
      prob (fun q : K × (Fn v.width v.block × Keyed I (255 * v.size)) => W q.1 (KdfGame.play (idealKdf (fn q.2.1) q.2.2) (X q.1)))| ≤
      2 * p / 256 ^ v.size + (c + 2) * (c + p + 3) / 256 ^ v.size := by
    intro R X hX W
    refine prob_avg (fun k (q : Fn v.width v.block × {d : Bytes // d.length = v.size}) => W k (KdfGame.play (hkdfWorld v.codeWith m (fn q.1) q.2.1) (X k)))
      (fun k (q : Fn v.width v.block × Keyed I (255 * v.size)) => W k (KdfGame.play (idealKdf (fn q.1) q.2) (X k))) _ fun k => ?_
    have h2 := C105_expand_prf v m v.size I L (le_refl _) hsb hI hL hm (X k) p c (hX k) (W k)
    rw [← prob_equiv (Equiv.prodComm (Fn v.width v.block) {k : Bytes // k.length = v.size})] at h2
    exact h2
  have e1 : ∀ q : K × Fn v.width v.block, ((Hkdf.extract (v.codeWith (fn q.2)) m salt (ikm q.1) prk).bind fun d =>
        KdfGame.play (hkdfWorld v.codeWith m (fn q.2) d) (X q.1)) = (Hkdf.extract (v.codeWith (fn q.2)) m salt (ikm q.1) prk).bind fun d =>
        MacGame.play (hmacWorld v.codeWith m (fn q.2) d) (viaTags v.size (X q.1)) := by
    intro q
    cases hd : Hkdf.extract (v.codeWith (fn q.2)) m salt (ikm q.1) prk with
    | none => rfl
    | some d =>
      have hl : d.length = v.size := by
        obtain ⟨hash, Rl, L', hd', hb⟩ := codeWith_lawful v (fn q.2)
        have := hi q.1
        rw [extract_spec L' m salt (ikm q.1) prk (by omega) (by rw [hb]; omega), if_pos (by rw [hd']; exact hprk)] at hd
        rw [← Option.some.inj hd, hmac_length L', hd']
      exact (real_expand v m (fn q.2) d I L (by omega) (by omega) hI hL hm (X q.1) p c (hX q.1)).symm
  have e2 : ∀ q : K × (Fn v.width v.block × {d : Bytes // d.length = v.size}), MacGame.play (hmacWorld v.codeWith m (fn q.2.1) q.2.2.1) (viaTags v.size (X q.1)) =
      KdfGame.play (hkdfWorld v.codeWith m (fn q.2.1) q.2.2.1) (X q.1) := by
    intro q
    have := q.2.2.2
    exact real_expand v m (fn q.2.1) q.2.2.1 I L (by omega) (by omega) hI hL hm (X q.1) p c (hX q.1)
  have e3 : ∀ q : K × (Fn v.width v.block × {d : Bytes // d.length = v.size}),
      MacGame.play (hmacWorld v.codeWith m (fn q.2.1) q.2.2.1) (macLog [] (viaTags v.size (X q.1))) =
      KdfGame.play (hkdfWorld v.codeWith m (fn q.2.1) q.2.2.1) ((X q.1).logged []) := by
    intro q
    have := q.2.2.2
    rw [← macLog_viaTags]
    exact real_expand v m (fn q.2.1) q.2.2.1 I L (by omega) (by omega) hI hL hm _ p c (logged_within _ _ _ _ (hX q.1))
  simp only [e1]
  simp only [e2, e3] at h1
  have h3 := prf X hX W
  have h4 := prf (fun k => (X k).logged []) (fun k => logged_within _ _ _ _ (hX k)) (fun k r => ∃ l, r = some l ∧ ∃ b ∈ l, ikm k <+: b)
  have h5 := (abs_le.mp h4).2
  refine ((abs_sub_le _ _ _).trans (add_le_add h1 h3)).trans ?_
  unfold leakError extractSlack
  unfold KdfGame.Compresses
  have e4 : ((1 : ℕ) : ℚ) * (((1 : ℕ) : ℚ) + 2 * ((p + 4 * c : ℕ) : ℚ) + 5) = 2 * p + 8 * c + 6 := by push_cast; ring
  rw [e4]
  push_cast
  linarith

end Theorems

/-! ## A concrete case -/

/-- The attacker knows the first half of a secret of 32 bytes, tries zeros for the rest, and looks at a key. -/
def tryHalf (half : Bytes) : KdfGame.Attacker 32 Bool :=
  .compress Model.Sha2.iv256 ((half ++ zeros 64).take 64) fun H => .derive [1] (zeros 42) fun d => .stop (d.take 1 == (bytesOf H).take 1)

theorem tryHalf_within (half : Bytes) : (tryHalf half).Within Variant.sha256.block 1 42 Variant.sha256.expandBlocks 1 2 :=
  ⟨by
    have : Variant.sha256.block = 64 := rfl
    rw [this]; simp, 0, rfl, fun H => ⟨by decide, by decide, 0, by decide, fun b => trivial⟩⟩

example (m : Mode) (W : Option Bool → Prop) :
    |prob (fun q : {k : Bytes // k.length = 32} × Fn 32 64 => W ((Hkdf.extract (Variant.sha256.codeWith (fn q.2)) m [] q.1.1 (zeros 32)).bind fun d =>
        KdfGame.play (hkdfWorld Variant.sha256.codeWith m (fn q.2) d) (tryHalf (q.1.1.take 16)))) -
      prob (fun q : {k : Bytes // k.length = 32} × (Fn 32 64 × Keyed 1 (255 * 32)) =>
        W (KdfGame.play (idealKdf (fn q.2.1) q.2.2) (tryHalf (q.1.1.take 16))))| ≤
    prob (fun q : {k : Bytes // k.length = 32} × (Fn 32 64 × Keyed 1 (255 * 32)) =>
      KdfGame.Compresses (idealKdf (fn q.2.1) q.2.2) (tryHalf (q.1.1.take 16)) q.1.1) + leakError 32 1 2 :=
  have : Nonempty {k : Bytes // k.length = 32} := ⟨⟨zeros 32, by decide⟩⟩
  C107_leak .sha256 m [] (by decide) (fun k : {k : Bytes // k.length = 32} => k.1) 1 42 (fun k => by rw [k.2]; decide) (by decide) (by decide)
    (fun _ => by decide) (zeros 32) (by decide) (fun k => tryHalf (k.1.take 16)) 1 2 (fun _ => tryHalf_within _) (fun _ => W)

end CryptoPure.Props
