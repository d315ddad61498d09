import Verif.Proofs.HmacSha

/-! # C104: HMAC when the compression function of SHA-2 is random

The code of src/sha2.rs and src/hmac.rs with a uniformly random function in place of the SHA-2 compression function. The key is
uniformly random, of at most one block. The attacker (Verif/Spec/MacGame.lean) may evaluate the compression function, ask for tags
and have tags verified. -/

namespace CryptoPure.Props
open CryptoPure.Model Spec.Sha2 MacGame Proofs Proofs.HmacSha Proofs.HmacIdeal Switch
open Game hiding play forges

/-- The compression function of the crate, src/sha2.rs:427-468. -/
def Variant.compression : (v : Variant) → Oct v.width → Bytes → Oct v.width
  | .sha224 | .sha256 => Model.Sha2.process Model.Sha2.P256
  | .sha384 | .sha512 => Model.Sha2.process Model.Sha2.P512

/-- The hash functions of the crate with `f` in place of the compression function; src/sha2.rs:134-137. -/
def Variant.codeWith : (v : Variant) → (Oct v.width → Bytes → Oct v.width) → Model.Sha2.HashFunction
  | .sha224, f => ShaWith.implFunction Model.Sha2.P256 f Model.Sha2.iv224 28 64
  | .sha256, f => ShaWith.implFunction Model.Sha2.P256 f Model.Sha2.iv256 32 64
  | .sha384, f => ShaWith.implFunction Model.Sha2.P512 f Model.Sha2.iv384 48 128
  | .sha512, f => ShaWith.implFunction Model.Sha2.P512 f Model.Sha2.iv512 64 128

/-- With the crate's own compression function these are the crate's own hash functions. -/
theorem C104_code (v : Variant) : v.codeWith v.compression = v.code := by cases v <;> rfl

/-- The attacker's world with the crate's HMAC: `H f` is the hash function with the compression function `f`. -/
def hmacWorld {w : Nat} (H : (Oct w → Bytes → Oct w) → Model.Sha2.HashFunction) (m : Mode) (f : Oct w → Bytes → Oct w) (key : Bytes) : World w where
  compress := f
  tag M := Hmac.wrapper (H f) m key M
  verify M t := Hmac.verify (H f) m key M t

/-- The attacker's world with a function `G` that has nothing to do with `f` in place of HMAC. -/
def idealWorld {w N n : Nat} (f : Oct w → Bytes → Oct w) (G : Keyed N n) : World w where
  compress := f
  tag M := some (G.ask M)
  verify M t := some (decide (G.ask M = t))

/-! ## The attacker as an experiment -/

section Exp
variable {w B N n : Nat} {R : Type}

/-- The arguments of the compression function that the attacker asks for. -/
def asked (F : Fn w B) (G : Keyed N n) : Attacker w R → List (Oct w × Blk B)
  | .stop _ => []
  | .compress H b next => (if h : b.length = B then [(H, ⟨b, h⟩)] else []) ++ asked F G (next (fn F H b))
  | .tag M next => asked F G (next (G.ask M))
  | .verify M t next => asked F G (next (decide (G.ask M = t)))

/-- The messages that the attacker asks about. -/
def texts (F : Fn w B) (G : Keyed N n) : Attacker w R → List {x : Bytes // x.length ≤ N}
  | .stop _ => []
  | .compress H b next => texts F G (next (fn F H b))
  | .tag M next => (if h : M.length ≤ N then [⟨M, h⟩] else []) ++ texts F G (next (G.ask M))
  | .verify M t next => (if h : M.length ≤ N then [⟨M, h⟩] else []) ++ texts F G (next (decide (G.ask M = t)))

theorem ask_congr {G G' : Keyed N n} {M : Bytes} {l : List {x : Bytes // x.length ≤ N}}
    (h : ∀ m ∈ (if h : M.length ≤ N then [⟨M, h⟩] else []) ++ l, G m = G' m) : G.ask M = G'.ask M := by
  unfold Keyed.ask
  split
  · next hM => rw [h ⟨M, hM⟩ (by simp [hM])]
  · rfl

theorem exp_congr (F F' : Fn w B) (G G' : Keyed N n) (A : Attacker w R) (h1 : ∀ x ∈ asked F G A, F x = F' x)
    (h2 : ∀ m ∈ texts F G A, G m = G' m) :
    play (idealWorld (fn F) G) A = play (idealWorld (fn F') G') A ∧
    (∀ log, forges (idealWorld (fn F) G) A log ↔ forges (idealWorld (fn F') G') A log) ∧
    asked F G A = asked F' G' A ∧ texts F G A = texts F' G' A := by
  induction A with
  | stop r => exact ⟨rfl, fun _ => Iff.rfl, rfl, rfl⟩
  | compress H b next ih =>
    have e : fn F H b = fn F' H b := by
      unfold fn
      split
      · next hb => exact h1 _ (by unfold asked; simp [hb])
      · rfl
    obtain ⟨i1, i2, i3, i4⟩ := ih (fn F H b) (fun x hx => h1 x (by unfold asked; simp [hx])) (fun m hm => h2 m hm)
    refine ⟨?_, fun log => ?_, ?_, ?_⟩
    · show play _ (next (fn F H b)) = play _ (next (fn F' H b))
      rw [← e]; exact i1
    · show forges _ (next (fn F H b)) log ↔ forges _ (next (fn F' H b)) log
      rw [← e]; exact i2 log
    · show _ ++ asked F G (next (fn F H b)) = _ ++ asked F' G' (next (fn F' H b))
      rw [← e, i3]
    · show texts F G (next (fn F H b)) = texts F' G' (next (fn F' H b))
      rw [← e, i4]
  | tag M next ih =>
    have e : G.ask M = G'.ask M := ask_congr h2
    obtain ⟨i1, i2, i3, i4⟩ := ih (G.ask M) (fun x hx => h1 x hx) (fun m hm => h2 m (by unfold texts; simp [hm]))
    refine ⟨?_, fun log => ?_, ?_, ?_⟩
    · show play _ (next (G.ask M)) = play _ (next (G'.ask M))
      rw [← e]; exact i1
    · show forges _ (next (G.ask M)) (M :: log) ↔ forges _ (next (G'.ask M)) (M :: log)
      rw [← e]; exact i2 _
    · show asked F G (next (G.ask M)) = asked F' G' (next (G'.ask M))
      rw [← e, i3]
    · show _ ++ texts F G (next (G.ask M)) = _ ++ texts F' G' (next (G'.ask M))
      rw [← e, i4]
  | verify M t next ih =>
    have e : G.ask M = G'.ask M := ask_congr h2
    obtain ⟨i1, i2, i3, i4⟩ := ih (decide (G.ask M = t)) (fun x hx => h1 x hx) (fun m hm => h2 m (by unfold texts; simp [hm]))
    refine ⟨?_, fun log => ?_, ?_, ?_⟩
    · show play _ (next (decide (G.ask M = t))) = play _ (next (decide (G'.ask M = t)))
      rw [← e]; exact i1
    · show (M ∉ log ∧ some (decide (G.ask M = t)) = some true) ∨ forges _ (next (decide (G.ask M = t))) log ↔
        (M ∉ log ∧ some (decide (G'.ask M = t)) = some true) ∨ forges _ (next (decide (G'.ask M = t))) log
      rw [← e]; exact or_congr Iff.rfl (i2 _)
    · show asked F G (next (decide (G.ask M = t))) = asked F' G' (next (decide (G'.ask M = t)))
      rw [← e, i3]
    · show _ ++ texts F G (next (decide (G.ask M = t))) = _ ++ texts F' G' (next (decide (G'.ask M = t)))
      rw [← e, i4]

theorem asked_length (F : Fn w B) (G : Keyed N n) (cost : Nat → Nat) (A : Attacker w R) (p c v : Nat) (hA : A.Within B N cost p c v) :
    (asked F G A).length ≤ p := by
  induction A generalizing p c v with
  | stop r => simp [asked]
  | compress H b next ih =>
    obtain ⟨hb, p, rfl, h⟩ := hA
    have := ih _ _ _ _ (h (fn F H b))
    unfold asked
    rw [dif_pos hb]
    simp; omega
  | tag M next ih =>
    obtain ⟨hM, c, rfl, h⟩ := hA
    exact ih _ _ _ _ (h _)
  | verify M t next ih =>
    obtain ⟨hM, c, rfl, v, rfl, h⟩ := hA
    exact ih _ _ _ _ (h _)

theorem texts_total (F : Fn w B) (G : Keyed N n) (cost : Nat → Nat) (blocks : {x : Bytes // x.length ≤ N} → List (Blk B))
    (hc : ∀ m, (blocks m).length = cost m.1.length) (A : Attacker w R) (p c v : Nat) (hA : A.Within B N cost p c v) :
    total blocks (texts F G A) ≤ c := by
  induction A generalizing p c v with
  | stop r => simp [texts, total]
  | compress H b next ih =>
    obtain ⟨hb, p, rfl, h⟩ := hA
    exact ih _ _ _ _ (h _)
  | tag M next ih =>
    obtain ⟨hM, c, rfl, h⟩ := hA
    have := ih _ _ _ _ (h (G.ask M))
    show total blocks (_ ++ texts F G (next (G.ask M))) ≤ _
    rw [dif_pos hM]
    unfold total at *
    rw [List.map_append, List.sum_append]
    simp only [List.map_cons, List.map_nil, List.sum_cons, List.sum_nil, hc ⟨M, hM⟩]
    omega
  | verify M t next ih =>
    obtain ⟨hM, c, rfl, v, rfl, h⟩ := hA
    have := ih _ _ _ _ (h (decide (G.ask M = t)))
    show total blocks (_ ++ texts F G (next (decide (G.ask M = t)))) ≤ _
    rw [dif_pos hM]
    unfold total at *
    rw [List.map_append, List.sum_append]
    simp only [List.map_cons, List.map_nil, List.sum_cons, List.sum_nil, hc ⟨M, hM⟩]
    omega

/-- Worlds that answer alike. -/
theorem world_congr (W W' : World w) (cost : Nat → Nat) (h1 : ∀ H b, W.compress H b = W'.compress H b) (h2 : ∀ M, M.length ≤ N → W.tag M = W'.tag M)
    (h3 : ∀ M t, M.length ≤ N → W.verify M t = W'.verify M t) (A : Attacker w R) (p c v : Nat) (hA : A.Within B N cost p c v) :
    play W A = play W' A ∧ ∀ log, forges W A log ↔ forges W' A log := by
  induction A generalizing p c v with
  | stop r => exact ⟨rfl, fun _ => Iff.rfl⟩
  | compress H b next ih =>
    obtain ⟨hb, p, rfl, h⟩ := hA
    obtain ⟨i1, i2⟩ := ih (W.compress H b) _ _ _ (h _)
    unfold play forges
    rw [← h1]
    exact ⟨i1, i2⟩
  | tag M next ih =>
    obtain ⟨hM, c, rfl, h⟩ := hA
    unfold play forges
    rw [← h2 M hM]
    cases hW : W.tag M with
    | none => exact ⟨rfl, fun _ => Iff.rfl⟩
    | some t => exact ⟨(ih t _ _ _ (h t)).1, fun log => (ih t _ _ _ (h t)).2 _⟩
  | verify M t next ih =>
    obtain ⟨hM, c, rfl, v, rfl, h⟩ := hA
    unfold play forges
    rw [← h3 M t hM]
    cases hW : W.verify M t with
    | none => exact ⟨rfl, fun _ => Iff.rfl⟩
    | some b => exact ⟨(ih b _ _ _ (h b)).1, fun log => or_congr Iff.rfl ((ih b _ _ _ (h b)).2 _)⟩

/-- With a random function in place of HMAC a tag can only be guessed. -/
theorem ideal_forges (F : Fn w B) (cost : Nat → Nat) (A : Attacker w R) (p c v : Nat) (hA : A.Within B N cost p c v) (log : List Bytes)
    (S : Set (Keyed N n)) (hS : ∀ G ∈ S, ∀ x : {x : Bytes // x.length ≤ N}, x.1 ∉ log → ∀ y, Function.update G x y ∈ S) :
    cprob S (fun G => forges (idealWorld (fn F) G) A log) ≤ v * (1 / 256 ^ n) := by
  classical
  induction A generalizing p c v log S with
  | stop r =>
    have : cprob S (fun G => forges (idealWorld (fn F) G) (Attacker.stop r : Attacker w R) log) = 0 := by
      unfold cprob forges
      simp
    rw [this]; positivity
  | compress H b next ih =>
    obtain ⟨hb, p, rfl, h⟩ := hA
    exact ih (fn F H b) _ _ _ (h _) log S hS
  | tag M next ih =>
    obtain ⟨hM, c, rfl, h⟩ := hA
    refine cprob_cases S (fun G => G.ask M) _ _ (by positivity) fun y _ => ?_
    refine le_trans (le_of_eq (cprob_congr fun G hG => ?_)) (ih y _ _ _ (h y) (M :: log) {G ∈ S | G.ask M = y} ?_)
    · show forges _ (next (G.ask M)) (M :: log) ↔ _
      rw [show G.ask M = y from hG.2]
    · rintro G ⟨hG1, hG2⟩ x hx z
      simp only [List.mem_cons, not_or] at hx
      refine ⟨hS G hG1 x hx.2 z, ?_⟩
      rw [← hG2]
      unfold Keyed.ask
      rw [dif_pos hM, dif_pos hM, Function.update_of_ne]
      intro e
      exact hx.1 (congrArg Subtype.val e).symm
  | verify M t next ih =>
    obtain ⟨hM, c, rfl, v, rfl, h⟩ := hA
    by_cases hlog : M ∈ log
    · refine cprob_cases S (fun G => decide (G.ask M = t)) _ _ (by positivity) fun y _ => ?_
      refine le_trans (le_of_eq (cprob_congr fun G hG => ?_)) (le_trans (ih y _ _ _ (h y) log {G ∈ S | decide (G.ask M = t) = y} ?_) ?_)
      · show (M ∉ log ∧ _) ∨ forges _ (next (decide (G.ask M = t))) log ↔ _
        rw [show decide (G.ask M = t) = y from hG.2]
        simp [hlog]
      · rintro G ⟨hG1, hG2⟩ x hx z
        refine ⟨hS G hG1 x hx z, ?_⟩
        rw [← hG2]
        unfold Keyed.ask
        rw [dif_pos hM, dif_pos hM, Function.update_of_ne]
        intro e
        exact hx (by rw [← congrArg Subtype.val e]; exact hlog)
      · refine mul_le_mul_of_nonneg_right ?_ (by positivity)
        push_cast; linarith
    · have h1 : cprob S (fun G => G.ask M = t) ≤ 1 / 256 ^ n := by
        have := cprob_point S (⟨M, hM⟩ : {x : Bytes // x.length ≤ N}) (fun G hG y => hS G hG _ hlog y) (fun d => d.1 = t)
        refine le_trans (le_of_eq (cprob_congr fun G _ => ?_)) (this.trans ?_)
        · unfold Keyed.ask; rw [dif_pos hM]
        · unfold prob
          rw [card_digest]
          push_cast
          refine div_le_div_of_nonneg_right ?_ (by positivity)
          have : {k : {d : Bytes // d.length = n} | k.1 = t}.ncard ≤ 1 := by
            rw [Set.ncard_le_one_iff]
            intro a b ha hb
            exact Subtype.ext (ha.trans hb.symm)
          exact_mod_cast this
      have h2 := ih false _ _ _ (h false) log S hS
      refine le_trans (cprob_mono S fun G _ hG => ?_) (le_trans (cprob_or S _ _) (le_trans (add_le_add h1 h2) ?_))
      · have hG : (M ∉ log ∧ some (decide (G.ask M = t)) = some true) ∨ forges (idealWorld (fn F) G) (next (decide (G.ask M = t))) log := hG
        by_cases e : G.ask M = t
        · exact Or.inl e
        · simp only [e, decide_false] at hG
          rcases hG with hG | hG
          · exact absurd hG.2 (by simp)
          · exact Or.inr hG
      · push_cast; linarith

end Exp

/-! ## The general theorem -/

section General
variable {w : Nat} {P : Model.Sha2.Params w} {A : Alg w} {R : Type}

/-- What must be known about the parameters. -/
structure Fits (P : Model.Sha2.Params w) (A : Alg w) (n kl N : Nat) : Prop where
  matches' : Sha2.Matches P A
  w8 : w % 8 = 0
  n0 : 0 < n
  n64 : n ≤ 64
  nw : n ≤ 8 * (w / 8)
  nd : n % (w / 8) = 0
  b128 : P.blockSize ≤ 128
  hb : A.lenBytes + 1 ≤ A.blockBytes
  hl : 8 ≤ A.lenBytes
  hnb : A.lenBytes + 1 + n ≤ A.blockBytes
  hk : kl ≤ A.blockBytes
  hN : A.blockBytes + N < 2 ^ 61

/-- The error. -/
def hmacError (kl n p c : Nat) : ℚ := 2 * p / 256 ^ kl + (c + 2) * (c + p + 3) / 256 ^ n

theorem real_eq {n kl N : Nat} (H : Fits P A n kl N) (iv : Oct w) (m : Mode) (F : Fn w A.blockBytes) (k : {k : Bytes // k.length = kl})
    (cost : Nat → Nat) (X : Attacker w R) (p c v : Nat) (hX : X.Within A.blockBytes N cost p c v) :
    let W := hmacWorld (fun f => ShaWith.implFunction P f iv n P.blockSize) m (fn F) k.1
    let W' := idealWorld (fn F) (hmacTag (N := N) A iv H.hb H.nw H.hk H.hnb F k)
    play W X = play W' X ∧ ∀ log, forges W X log ↔ forges W' X log := by
  intro W W'
  have hk := k.2
  have h1 := H.hk
  have h2 := H.hN
  have L := Proofs.ShaWith.lawful_impl (f := fn F) H.matches' iv n H.nw H.n0 H.nd H.n64 H.b128
  have hbs : P.blockSize = A.blockBytes := by rw [H.matches'.block, H.matches'.ablock]
  have ha : ∀ M (hM : M.length ≤ N), (hmacTag (N := N) A iv H.hb H.nw H.hk H.hnb F k).ask M =
      Spec.hmac (digestF A (fn F) iv n) A.blockBytes k.1 M := by
    intro M hM
    unfold Keyed.ask
    rw [dif_pos hM]
    exact (hmac_eq A iv H.hb H.nw H.hk H.hnb F k ⟨M, hM⟩).symm
  refine world_congr (B := A.blockBytes) (N := N) W W' cost (fun _ _ => rfl) (fun M hM => ?_) (fun M t hM => ?_) X p c v hX
  · show Hmac.wrapper _ m k.1 M = some _
    rw [ha M hM, hmac_wrapper_spec L m k.1 M (by omega) (by show P.blockSize + _ < _; omega)]
    show some (Spec.hmac _ P.blockSize _ _) = _
    rw [hbs]
  · show Hmac.verify _ m k.1 M t = some (decide _)
    rw [ha M hM, hmac_verify_spec L m k.1 M t (by omega) (by show P.blockSize + _ < _; omega)]
    show some (decide (Spec.hmac _ P.blockSize _ _ = _)) = _
    congr

variable {n kl N : Nat}

/-- The ideal world with the values of the random function cut out of chaining values. -/
theorem ideal_cut (H : Fits P A n kl N) (E : Fn w A.blockBytes → Keyed N n → Prop) :
    prob (fun q : Fn w A.blockBytes × ({x : Bytes // x.length ≤ N} → Oct w) => E q.1 (fun m => out n H.nw (q.2 m))) =
    prob (fun q : Fn w A.blockBytes × Keyed N n => E q.1 q.2) := by
  let e : Fn w A.blockBytes × ({x : Bytes // x.length ≤ N} → Oct w) ≃
      (Fn w A.blockBytes × Keyed N n) × ({x : Bytes // x.length ≤ N} → {d : Bytes // d.length = 8 * (w / 8) - n}) :=
    ((Equiv.refl _).prodCongr (((Equiv.refl _).arrowCongr (splitOct H.w8 n H.nw)).trans (Equiv.arrowProdEquivProdArrow _ _ _))).trans
      (Equiv.prodAssoc _ _ _).symm
  rw [← prob_fst (β := {x : Bytes // x.length ≤ N} → {d : Bytes // d.length = 8 * (w / 8) - n}) (P := fun q : Fn w A.blockBytes × Keyed N n => E q.1 q.2),
    ← prob_equiv e]
  rfl

theorem near (H : Fits P A n kl N) (iv : Oct w) (X : Attacker w R) (p c v : Nat)
    (hX : X.Within A.blockBytes N (cost A) p c v) (E : Fn w A.blockBytes → Keyed N n → Prop)
    (hE : ∀ F F' G G', (∀ x ∈ asked F G X, F x = F' x) → (∀ x ∈ texts F G X, G x = G' x) → (E F G ↔ E F' G')) :
    prob (fun q : Fn w A.blockBytes × Keyed N n => E q.1 q.2) ≤
      prob (fun q : {k : Bytes // k.length = kl} × Fn w A.blockBytes => E q.2 (hmacTag (N := N) A iv H.hb H.nw H.hk H.hnb q.2 q.1)) +
      hmacError kl n p c := by
  let Y : Exper (Oct w) (Blk A.blockBytes) {x : Bytes // x.length ≤ N} {d : Bytes // d.length = n} :=
    { E := E
      Q := fun F G => asked F G X
      Ms := fun F G => texts F G X
      congr := fun F F' G G' h1 h2 => ⟨hE F F' G G' h1 h2, (exp_congr F F' G G' X h1 h2).2.2.1, (exp_congr F F' G G' X h1 h2).2.2.2⟩ }
  have h1 := ideal_le_real iv (keyBlock H.hk 0x36) (keyBlock H.hk 0x5c) (fun m : {x : Bytes // x.length ≤ N} => blocksOf A H.hb m.1)
    (out n H.nw) (fun d => lastBlock A d H.hnb) Y
  have h2 := not_ok_le (iv := iv) (ki := keyBlock H.hk 0x36) (ko := keyBlock H.hk 0x5c) (blocks := fun m : {x : Bytes // x.length ≤ N} => blocksOf A H.hb m.1)
    (g := out n H.nw) (ob := fun d => lastBlock A d H.hnb) Y
    (by
      have := H.hN
      intro a b e
      have ha := a.2
      have hb := b.2
      exact Subtype.ext (blocksOf_inj A H.hb H.hl (by omega) (by omega) e))
    (by
      have := H.b128
      have := H.n64
      have hbs : P.blockSize = A.blockBytes := by rw [H.matches'.block, H.matches'.ablock]
      intro a b e
      have ha := a.2
      have hb := b.2
      exact Subtype.ext (padded_inj A H.hl (by omega) (by omega) (congrArg Subtype.val e)))
    (keyBlock_inj H.hk _) (keyBlock_inj H.hk _) (fun k => keyBlock_ne (by have := H.hb; omega) H.hk k) (1 / 256 ^ n) (by positivity)
    (fun t => le_of_eq (prob_out H.w8 n H.nw t)) p c (fun F G => asked_length F G (cost A) X p c v hX)
    (fun F G => texts_total F G (cost A) _ (fun m => blocksOf_length A H.hb m.1) X p c v hX)
  have h3 := ideal_cut H E
  refine le_trans (le_of_eq h3.symm) (le_trans h1 (add_le_add_right (le_trans h2 (le_of_eq ?_)) _))
  unfold hmacError
  rw [card_digest]
  push_cast
  ring

theorem near_abs (H : Fits P A n kl N) (iv : Oct w) (X : Attacker w R) (p c v : Nat)
    (hX : X.Within A.blockBytes N (cost A) p c v) (E : Fn w A.blockBytes → Keyed N n → Prop)
    (hE : ∀ F F' G G', (∀ x ∈ asked F G X, F x = F' x) → (∀ x ∈ texts F G X, G x = G' x) → (E F G ↔ E F' G')) :
    |prob (fun q : {k : Bytes // k.length = kl} × Fn w A.blockBytes => E q.2 (hmacTag (N := N) A iv H.hb H.nw H.hk H.hnb q.2 q.1)) -
      prob (fun q : Fn w A.blockBytes × Keyed N n => E q.1 q.2)| ≤ hmacError kl n p c := by
  have h1 := near H iv X p c v hX E hE
  have h2 := near H iv X p c v hX (fun F G => ¬ E F G) (fun F F' G G' a b => not_congr (hE F F' G G' a b))
  rw [prob_not, prob_not] at h2
  rw [abs_le]
  constructor <;> linarith

theorem prf_general (H : Fits P A n kl N) (iv : Oct w) (m : Mode) (X : Attacker w R) (p c v : Nat)
    (hX : X.Within A.blockBytes N (cost A) p c v) (W : Option R → Prop) :
    |prob (fun q : {k : Bytes // k.length = kl} × Fn w A.blockBytes =>
        W (play (hmacWorld (fun f => ShaWith.implFunction P f iv n P.blockSize) m (fn q.2) q.1.1) X)) -
      prob (fun q : Fn w A.blockBytes × Keyed N n => W (play (idealWorld (fn q.1) q.2) X))| ≤ hmacError kl n p c := by
  have h := near_abs H iv X p c v hX (fun F G => W (play (idealWorld (fn F) G) X))
    (fun F F' G G' h1 h2 => by rw [(exp_congr F F' G G' X h1 h2).1])
  refine le_trans (le_of_eq ?_) h
  congr 3
  funext q
  exact congrArg W (real_eq H iv m q.2 q.1 (cost A) X p c v hX).1

theorem forge_general (H : Fits P A n kl N) (iv : Oct w) (m : Mode) (X : Attacker w R) (p c v : Nat)
    (hX : X.Within A.blockBytes N (cost A) p c v) :
    prob (fun q : {k : Bytes // k.length = kl} × Fn w A.blockBytes =>
        forges (hmacWorld (fun f => ShaWith.implFunction P f iv n P.blockSize) m (fn q.2) q.1.1) X []) ≤
      v / 256 ^ n + hmacError kl n p c := by
  have h := near_abs H iv X p c v hX (fun F G => forges (idealWorld (fn F) G) X [])
    (fun F F' G G' h1 h2 => (exp_congr F F' G G' X h1 h2).2.1 [])
  have h1 : prob (fun q : {k : Bytes // k.length = kl} × Fn w A.blockBytes =>
        forges (hmacWorld (fun f => ShaWith.implFunction P f iv n P.blockSize) m (fn q.2) q.1.1) X []) =
      prob (fun q : {k : Bytes // k.length = kl} × Fn w A.blockBytes =>
        forges (idealWorld (fn q.2) (hmacTag (N := N) A iv H.hb H.nw H.hk H.hnb q.2 q.1)) X []) := by
    congr 1
    funext q
    exact propext ((real_eq H iv m q.2 q.1 (cost A) X p c v hX).2 [])
  have h2 : prob (fun q : Fn w A.blockBytes × Keyed N n => forges (idealWorld (fn q.1) q.2) X []) ≤ v / 256 ^ n := by
    rw [← prob_equiv (Equiv.prodComm (Keyed N n) (Fn w A.blockBytes))]
    refine prob_prod_le _ _ fun F => ?_
    have := ideal_forges (N := N) (n := n) F (cost A) X p c v hX [] Set.univ (fun _ _ _ _ _ => Set.mem_univ _)
    rw [cprob_univ] at this
    refine le_trans this (le_of_eq ?_)
    ring
  have h3 := (abs_le.mp h).2
  rw [h1]
  linarith

end General

/-! ## The theorems -/

/-- The number of times HMAC evaluates the compression function on blocks of a text of `l` bytes (and its padding), apart from the two blocks with the key and
the last block. -/
def Variant.blocks (v : Variant) (l : Nat) : Nat := (l + v.alg.lenBytes) / v.block + 1

/-- **HMAC is pseudorandom when the compression function is random.** The attacker evaluates a uniformly random compression function
at most `p` times, and has tags computed or verified under a random key of `kl` bytes for texts of at most `c` blocks altogether. It ends with a
result. Any event `W` about that result has nearly the same probability as when HMAC is replaced by a random function from texts to tags that
has nothing to do with the compression function. (A result of `none` would mean that the code panicked.) -/
theorem C104_prf (v : Variant) (m : Mode) (kl N : Nat) (hk : kl ≤ v.block) (hN : v.block + N < 2 ^ 61) {R : Type} (X : Attacker v.width R)
    (p c t : Nat) (hX : X.Within v.block N v.blocks p c t) (W : Option R → Prop) :
    |prob (fun q : {k : Bytes // k.length = kl} × Fn v.width v.block => W (play (hmacWorld v.codeWith m (fn q.2) q.1.1) X)) -
      prob (fun q : Fn v.width v.block × Keyed N v.size => W (play (idealWorld (fn q.1) q.2) X))| ≤
    2 * p / 256 ^ kl + (c + 2) * (c + p + 3) / 256 ^ v.size := by
  cases v
  · exact prf_general (P := Model.Sha2.P256) (A := alg256) (n := 28) ⟨Sha2.matches256, by decide, by decide, by decide, by decide, by decide, by decide, by decide, by decide, by decide, hk, hN⟩
      Model.Sha2.iv224 m X p c t hX W
  · exact prf_general (P := Model.Sha2.P256) (A := alg256) (n := 32) ⟨Sha2.matches256, by decide, by decide, by decide, by decide, by decide, by decide, by decide, by decide, by decide, hk, hN⟩
      Model.Sha2.iv256 m X p c t hX W
  · exact prf_general (P := Model.Sha2.P512) (A := alg512) (n := 48) ⟨Sha2.matches512, by decide, by decide, by decide, by decide, by decide, by decide, by decide, by decide, by decide, hk, hN⟩
      Model.Sha2.iv384 m X p c t hX W
  · exact prf_general (P := Model.Sha2.P512) (A := alg512) (n := 64) ⟨Sha2.matches512, by decide, by decide, by decide, by decide, by decide, by decide, by decide, by decide, by decide, hk, hN⟩
      Model.Sha2.iv512 m X p c t hX W

/-- **HMAC cannot be forged when the compression function is random.** With `t` verifications the attacker gets a tag accepted for a text whose
tag it has not asked for with probability at most `t / 256 ^ size` plus the error of `C104_prf`. -/
theorem C104_unforgeable (v : Variant) (m : Mode) (kl N : Nat) (hk : kl ≤ v.block) (hN : v.block + N < 2 ^ 61) {R : Type}
    (X : Attacker v.width R) (p c t : Nat) (hX : X.Within v.block N v.blocks p c t) :
    prob (fun q : {k : Bytes // k.length = kl} × Fn v.width v.block => forges (hmacWorld v.codeWith m (fn q.2) q.1.1) X []) ≤
    t / 256 ^ v.size + (2 * p / 256 ^ kl + (c + 2) * (c + p + 3) / 256 ^ v.size) := by
  cases v
  · exact forge_general (P := Model.Sha2.P256) (A := alg256) (n := 28) ⟨Sha2.matches256, by decide, by decide, by decide, by decide, by decide, by decide, by decide, by decide, by decide, hk, hN⟩
      Model.Sha2.iv224 m X p c t hX
  · exact forge_general (P := Model.Sha2.P256) (A := alg256) (n := 32) ⟨Sha2.matches256, by decide, by decide, by decide, by decide, by decide, by decide, by decide, by decide, by decide, hk, hN⟩
      Model.Sha2.iv256 m X p c t hX
  · exact forge_general (P := Model.Sha2.P512) (A := alg512) (n := 48) ⟨Sha2.matches512, by decide, by decide, by decide, by decide, by decide, by decide, by decide, by decide, by decide, hk, hN⟩
      Model.Sha2.iv384 m X p c t hX
  · exact forge_general (P := Model.Sha2.P512) (A := alg512) (n := 64) ⟨Sha2.matches512, by decide, by decide, by decide, by decide, by decide, by decide, by decide, by decide, by decide, hk, hN⟩
      Model.Sha2.iv512 m X p c t hX

/-! ## Concrete cases -/

/-- An attacker on HMAC-SHA-256: it asks for the tag of `[1]`, compresses a block made of it, and submits the result as a tag for `[2]`. -/
def tryOne : Attacker 32 Bool :=
  .tag [1] fun t => .compress Model.Sha2.iv256 ((t ++ zeros 64).take 64) fun H => .verify [2] (bytesOf H) fun b => .stop b

theorem tryOne_within : tryOne.Within Variant.sha256.block 1 Variant.sha256.blocks 1 2 1 :=
  ⟨by decide, 1, by decide, fun t => ⟨by
    have : Variant.sha256.block = 64 := rfl
    rw [this]; simp, 0, rfl, fun H => ⟨by decide, 0, by decide, 0, rfl, fun b => trivial⟩⟩⟩

/-- It succeeds with probability at most `2 ^ -248`. -/
example (m : Mode) :
    prob (fun q : {k : Bytes // k.length = 32} × Fn 32 64 => forges (hmacWorld Variant.sha256.codeWith m (fn q.2) q.1.1) tryOne []) ≤ 1 / 2 ^ 248 := by
  refine (C104_unforgeable .sha256 m 32 1 (by decide) (by decide) tryOne 1 2 1 tryOne_within).trans ?_
  have : Variant.sha256.size = 32 := rfl
  rw [this]
  norm_num

/-- With the crate's own compression function the world is the crate's HMAC. -/
example (v : Variant) (m : Mode) (key M t : Bytes) :
    (hmacWorld v.codeWith m v.compression key).tag M = Hmac.wrapper v.code m key M ∧
    (hmacWorld v.codeWith m v.compression key).verify M t = Hmac.verify v.code m key M t := by
  unfold hmacWorld
  rw [C104_code]
  exact ⟨rfl, rfl⟩

/-! ## Further concrete cases -/

example (m : Mode) (W : Option Bool → Prop) :
    |prob (fun q : {k : Bytes // k.length = 32} × Fn 32 64 => W (play (hmacWorld Variant.sha256.codeWith m (fn q.2) q.1.1) tryOne)) -
      prob (fun q : Fn 32 64 × Keyed 1 32 => W (play (idealWorld (fn q.1) q.2) tryOne))| ≤
    2 * (1 : Nat) / 256 ^ 32 + ((2 : Nat) + 2) * ((2 : Nat) + (1 : Nat) + 3) / 256 ^ 32 :=
  C104_prf .sha256 m 32 1 (by decide) (by decide) tryOne 1 2 1 tryOne_within W

end CryptoPure.Props
