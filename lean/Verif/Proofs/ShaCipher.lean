import Verif.Proofs.CipherIdeal
import Verif.Spec.CipherGame

/-! # The hash of src/sha2.rs over a random block cipher, and the block cipher inside SHA-2 -/

namespace CryptoPure.Proofs.ShaCipher
open CryptoPure.Model Spec.Sha2 Game HmacIdeal HmacSha ShaIdeal CipherIdeal CipherGame

/-! ## Chaining values are a group -/

/-- Elementwise subtraction. -/
def sub {w : Nat} (s t : Oct w) : Oct w := ⟨s.a - t.a, s.b - t.b, s.c - t.c, s.d - t.d, s.e - t.e, s.f - t.f, s.g - t.g, s.h - t.h⟩

theorem add_comm' {w : Nat} (s t : Oct w) : s.add t = t.add s := by
  unfold Oct.add
  congr 1 <;> exact BitVec.add_comm _ _

theorem sub_add {w : Nat} (s t : Oct w) : sub (s.add t) s = t := by
  rw [add_comm']
  unfold sub Oct.add
  cases t
  congr 1 <;> exact BitVec.add_sub_cancel _ _

theorem add_sub {w : Nat} (s t : Oct w) : s.add (sub t s) = t := by
  rw [add_comm']
  unfold sub Oct.add
  cases t
  congr 1 <;> exact BitVec.sub_add_cancel _ _

/-- Addition of a constant. -/
def addL {w : Nat} (s : Oct w) : Oct w ≃ Oct w where
  toFun t := s.add t
  invFun t := sub t s
  left_inv t := sub_add s t
  right_inv t := add_sub s t

/-! ## The rounds can be undone -/

section Rounds
open CryptoPure.Model.Sha2
variable {w : Nat} (P : Params w)

/-- A round backwards. -/
def unround (v : Oct w) (kw : BitVec w × BitVec w) : Oct w :=
  let t1 := v.a - (bsig0 P v.b + maj v.b v.c v.d)
  { a := v.b, b := v.c, c := v.d, d := v.e - t1, e := v.f, f := v.g, g := v.h, h := t1 - kw.2 - kw.1 - ch v.f v.g v.h - bsig1 P v.f }

theorem unround_round (v : Oct w) (kw : BitVec w × BitVec w) : unround P (round P v kw) kw = v := by
  obtain ⟨a, b, c, d, e, f, g, h⟩ := v
  simp only [unround, round, BitVec.add_sub_cancel]

theorem round_unround (v : Oct w) (kw : BitVec w × BitVec w) : round P (unround P v kw) kw = v := by
  obtain ⟨a, b, c, d, e, f, g, h⟩ := v
  simp only [unround, round, BitVec.sub_add_cancel]

/-- A round is a permutation. -/
def roundE (kw : BitVec w × BitVec w) : Equiv.Perm (Oct w) where
  toFun v := round P v kw
  invFun v := unround P v kw
  left_inv v := unround_round P v kw
  right_inv v := round_unround P v kw

/-- The rounds are a permutation. -/
def roundsE : List (BitVec w × BitVec w) → Equiv.Perm (Oct w)
  | [] => Equiv.refl _
  | kw :: l => (roundE P kw).trans (roundsE l)

theorem roundsE_apply (l : List (BitVec w × BitVec w)) (v : Oct w) : roundsE P l v = l.foldl (round P) v := by
  induction l generalizing v with
  | nil => rfl
  | cons kw l ih => exact ih _

/-- The cipher in SHA-2. -/
def shacal (b : Bytes) : Equiv.Perm (Oct w) := roundsE P (P.k.zip (schedule P b))

theorem process_eq (H : Oct w) (b : Bytes) : process P H b = H.add (shacal P b H) := by
  unfold process shacal
  rw [roundsE_apply]

end Rounds

/-! ## The game -/

section
variable {w B : Nat} {R : Type}

/-- The compression function. -/
def dm (E : Cipher w B) : Fn w B := fun x => x.1.add (E x.2 x.1)

/-- An evaluation of the compression function is one of the cipher. -/
def ofEval : Eval (Oct w × Blk B) (Oct w) → Tree (Blk B) (Oct w)
  | .stop => .stop
  | .ask x next => .ask true x.2 x.1 fun y => ofEval (next (x.1.add y))

theorem ofEval_within (t : Eval (Oct w × Blk B) (Oct w)) (n : Nat) (h : t.Within n) : (ofEval t).Within n := by
  induction t generalizing n with
  | stop => trivial
  | ask x next ih =>
    obtain ⟨n, rfl, h⟩ := h
    exact ⟨n, rfl, fun y => ih _ n (h _)⟩

/-- What a call tells about the cipher. -/
def learn (E : Cipher w B) (x : Oct w × Blk B) : Blk B × Oct w × Oct w := (x.2, x.1, E x.2 x.1)

theorem learn_inj (E : Cipher w B) : Function.Injective (learn E) := by
  intro x y h
  unfold learn at h
  obtain ⟨h1, h2⟩ := Prod.mk.inj h
  exact Prod.ext (Prod.mk.inj h2).1 h1

theorem ofEval_trace (E : Cipher w B) (t : Eval (Oct w × Blk B) (Oct w)) : (ofEval t).trace E = (t.args (dm E)).map (learn E) := by
  induction t with
  | stop => rfl
  | ask x next ih =>
    rw [ofEval, Tree.trace, Eval.args, List.map_cons]
    congr 1
    exact ih _

/-- The questions of the attacker, then those of `k`. -/
def probeT (k : R → Tree (Blk B) (Oct w)) : Prober w R → Tree (Blk B) (Oct w)
  | .stop r => k r
  | .encipher b x next => if h : b.length = B then .ask true ⟨b, h⟩ x fun y => probeT k (next y) else probeT k (next x)
  | .decipher b x next => if h : b.length = B then .ask false ⟨b, h⟩ x fun y => probeT k (next y) else probeT k (next x)

theorem probeT_within (k : R → Tree (Blk B) (Oct w)) (c : Nat) (hk : ∀ r, (k r).Within c) (X : Prober w R) (p : Nat) (hX : X.Within B p) :
    (probeT k X).Within (p + c) := by
  induction X generalizing p with
  | stop r => exact (hk r).mono (by omega)
  | encipher b x next ih =>
    obtain ⟨hb, p, rfl, h⟩ := hX
    rw [probeT, dif_pos hb]
    exact ⟨p + c, by omega, fun y => ih y p (h y)⟩
  | decipher b x next ih =>
    obtain ⟨hb, p, rfl, h⟩ := hX
    rw [probeT, dif_pos hb]
    exact ⟨p + c, by omega, fun y => ih y p (h y)⟩

theorem probeT_trace (k : R → Tree (Blk B) (Oct w)) (E : Cipher w B) (X : Prober w R) :
    ∀ q ∈ (k (X.run (enc E) (dec E))).trace E, q ∈ (probeT k X).trace E := by
  induction X with
  | stop r => exact fun x hx => hx
  | encipher b x next ih =>
    intro q hq
    rw [probeT]
    rw [Prober.run] at hq
    by_cases h : b.length = B
    · rw [dif_pos h]
      have e : enc E b x = E ⟨b, h⟩ x := by unfold enc; rw [dif_pos h]
      rw [e] at hq
      exact List.mem_cons_of_mem _ (ih _ q hq)
    · rw [dif_neg h]
      have e : enc E b x = x := by unfold enc; rw [dif_neg h]
      rw [e] at hq
      exact ih _ q hq
  | decipher b x next ih =>
    intro q hq
    rw [probeT]
    rw [Prober.run] at hq
    by_cases h : b.length = B
    · rw [dif_pos h]
      have e : dec E b x = (E ⟨b, h⟩).symm x := by unfold dec; rw [dif_pos h]
      rw [e] at hq
      exact List.mem_cons_of_mem _ (ih _ q hq)
    · rw [dif_neg h]
      have e : dec E b x = x := by unfold dec; rw [dif_neg h]
      rw [e] at hq
      exact ih _ q hq

theorem trace_length (E : Cipher w B) (t : Tree (Blk B) (Oct w)) (n : Nat) (h : t.Within n) : (t.trace E).length ≤ n := by
  induction t generalizing n with
  | stop => simp [Tree.trace]
  | ask fwd b x next ih =>
    obtain ⟨n, rfl, h⟩ := h
    rw [Tree.trace, List.length_cons]
    exact Nat.succ_le_succ (ih _ n (h _))

/-- The tree that first hashes `bs`. -/
def chainT : Oct w → List (Blk B) → Tree (Blk B) (Oct w) → Tree (Blk B) (Oct w)
  | _, [], next => next
  | s, b :: bs, next => .ask true b s fun y => chainT (s.add y) bs next

theorem chainT_within (s : Oct w) (bs : List (Blk B)) (next : Tree (Blk B) (Oct w)) (n : Nat) (h : next.Within n) :
    (chainT s bs next).Within (bs.length + n) := by
  induction bs generalizing s with
  | nil => simpa [chainT] using h
  | cons b bs ih => exact ⟨bs.length + n, by simp; omega, fun y => ih _⟩

theorem chainT_trace (E : Cipher w B) (s : Oct w) (bs : List (Blk B)) (next : Tree (Blk B) (Oct w)) :
    (chainT s bs next).trace E = (calls (dm E) s bs).map (learn E) ++ next.trace E := by
  induction bs generalizing s with
  | nil => rfl
  | cons b bs ih =>
    rw [chainT, Tree.trace, calls, List.map_cons, List.cons_append]
    congr 1
    exact ih _

/-- The output for a triple. -/
def val (n : Nat) (hn : n ≤ 8 * (w / 8)) (x y : Oct w) : {d : Bytes // d.length = n} := out n hn (x.add y)

theorem val_learn (E : Cipher w B) (n : Nat) (hn : n ≤ 8 * (w / 8)) (x : Oct w × Blk B) :
    val n hn (learn E x).2.1 (learn E x).2.2 = out n hn (dm E x) := rfl

theorem prob_val (hw : w % 8 = 0) (n : Nat) (hn : n ≤ 8 * (w / 8)) (x : Oct w) (t : {d : Bytes // d.length = n}) :
    prob (fun y => val n hn x y = t) ≤ 1 / 256 ^ n := by
  rw [← prob_out hw n hn t]
  exact le_of_eq (prob_equiv (addL x) fun y => out n hn y = t)

theorem prob_val' (hw : w % 8 = 0) (n : Nat) (hn : n ≤ 8 * (w / 8)) (y : Oct w) (t : {d : Bytes // d.length = n}) :
    prob (fun x => val n hn x y = t) ≤ 1 / 256 ^ n := by
  refine le_trans (le_of_eq ?_) (prob_val hw n hn y t)
  congr 1
  funext x
  unfold val
  rw [add_comm']

theorem card_large (n : Nat) (hn : n ≤ 8 * (w / 8)) : 256 ^ n ≤ Nat.card (Oct w) := by
  rw [card_oct, show 256 = 2 ^ 8 from rfl, ← Nat.pow_mul]
  exact Nat.pow_le_pow_right (by omega) (by omega)

theorem prob_le_one' {α : Type} [Finite α] (P : α → Prop) : prob P ≤ 1 := by
  rw [← cprob_univ]
  exact Switch.cprob_le_one _ _

theorem calls_length {C B : Type} (f : C × B → C) (s : C) (bs : List B) : (calls f s bs).length = bs.length := by
  induction bs generalizing s with
  | nil => rfl
  | cons b bs ih => simp [calls, ih]

/-- An accident is rare. -/
theorem accident (hw : w % 8 = 0) (n : Nat) (hn : n ≤ 8 * (w / 8)) (t : Tree (Blk B) (Oct w)) (q : Nat) (ht : t.Within q) (k : Nat) (hk : k ≤ q)
    (seen : List {d : Bytes // d.length = n}) (hq : 2 * q ≤ Nat.card (Oct w)) :
    prob (fun E : Cipher w B => Bad (val n hn) E t k [] seen) ≤ (q * seen.length + k * q - k * (k + 1) / 2) * (2 / 256 ^ n) := by
  have h := CipherIdeal.bad_le (val n hn) (1 / 256 ^ n) (by positivity) (prob_val hw n hn) (prob_val' hw n hn) t q ht k hk [] (by simpa using hq) seen
  have e : Cons ([] : List (Blk B × Oct w × Oct w)) = Set.univ := by ext; simp [Cons]
  rw [e, cprob_univ] at h
  refine h.trans (le_of_eq ?_)
  ring

end

section Pad
variable {w : Nat} (A : Alg w) (hb : A.lenBytes + 1 ≤ A.blockBytes) (iv : Oct w) {n N : Nat} (hn : n ≤ 8 * (w / 8)) (hw : w % 8 = 0)

include hb in
theorem digestF_dm (E : Cipher w A.blockBytes) (m : Bytes) : digestF A (daviesMeyer (enc E)) iv n m = digestF A (fn (dm E)) iv n m := by
  unfold digestF digestWithF hashBlocksF
  have h := chunks_mem_length (n := A.blockBytes) (by omega) (whole_length A hb m)
  unfold whole at h
  generalize chunks A.blockBytes (m ++ padding A m.length (8 * m.length)) = l at *
  have : ∀ H, l.foldl (daviesMeyer (enc E)) H = l.foldl (fn (dm E)) H := by
    induction l with
    | nil => intro H; rfl
    | cons b l ih =>
      intro H
      have hb' : b.length = A.blockBytes := h b (by simp)
      rw [List.foldl_cons, List.foldl_cons, ih (fun c hc => h c (by simp [hc]))]
      congr 1
      unfold daviesMeyer enc fn dm
      rw [dif_pos hb', dif_pos hb']
  rw [this]

include hb hn hw in
theorem collision_le (hl : 8 ≤ A.lenBytes) (hN : N < 2 ^ 61) (X : Prober w (Bytes × Bytes)) (p : Nat) (hX : X.Within A.blockBytes p) :
    prob (fun E : Cipher w A.blockBytes => (X.run (enc E) (dec E)).1 ≠ (X.run (enc E) (dec E)).2 ∧ (X.run (enc E) (dec E)).1.length ≤ N ∧
      (X.run (enc E) (dec E)).2.length ≤ N ∧
      digestF A (fn (dm E)) iv n (X.run (enc E) (dec E)).1 = digestF A (fn (dm E)) iv n (X.run (enc E) (dec E)).2) ≤
    (p + 2 * cost A N) * (p + 2 * cost A N + 1) / 256 ^ n := by
  classical
  have hcost : 1 ≤ cost A N := by unfold cost; exact Nat.le_add_left 1 _
  obtain ⟨q, hq⟩ : ∃ q, q = p + 2 * cost A N := ⟨_, rfl⟩
  have hq' : (q : ℚ) = p + 2 * cost A N := by rw [hq]; push_cast; rfl
  rw [← hq']
  by_cases hbig : 2 * q ≤ Nat.card (Oct w)
  swap
  · refine le_trans (prob_le_one' _) ?_
    rw [le_div_iff₀ (by positivity), one_mul]
    have h1 := card_large (w := w) n hn
    have h2 : 256 ^ n ≤ q * (q + 1) := by nlinarith
    exact_mod_cast h2
  have hwi := probeT_within (fun r : Bytes × Bytes => ofEval (hashE A hb iv N [r.1, r.2])) (2 * cost A N) (fun r => ofEval_within _ _ (hashE_within A hb iv (N := N) [r.1, r.2])) X p hX
  rw [show p + 2 * cost A N = q from hq.symm] at hwi
  have hbd := accident hw n hn _ q hwi q le_rfl [out n hn iv] hbig
  refine le_trans (prob_mono fun E hE => ?_) (le_trans hbd (le_of_eq (by simp; ring)))
  obtain ⟨hne, h1, h2, he⟩ := hE
  by_contra hbad
  obtain ⟨n1, n2⟩ := CipherIdeal.not_bad _ _ _ _ hbad
  rw [List.take_of_length_le (trace_length E _ q hwi)] at n2
  have hin := fun (m : Bytes) (hm : m ∈ [(X.run (enc E) (dec E)).1, (X.run (enc E) (dec E)).2]) (hmN : m.length ≤ N) x hx =>
    probeT_trace (fun r : Bytes × Bytes => ofEval (hashE A hb iv N [r.1, r.2])) E X (learn E x) (by
      rw [ofEval_trace]
      exact List.mem_map_of_mem (hashE_args A hb iv (dm E) _ m hm hmN x hx))
  rw [digestF_pieces A hb (dm E) iv n hn, digestF_pieces A hb (dm E) iv n hn] at he
  refine hne (pieces_inj A hb hl (by omega) (by omega) (chain_inj_iv (out n hn) _ _ (fun x hx => ?_) (fun x hx => ?_) (fun x hx y hy e => ?_)
    (Subtype.ext he)))
  · have := n1 _ (hin _ (by simp) h1 x hx) (by simp)
    rw [val_learn] at this
    simpa using this
  · have := n1 _ (hin _ (by simp) h2 x hx) (by simp)
    rw [val_learn] at this
    simpa using this
  · exact learn_inj E (n2 _ (hin _ (by simp) h1 x hx) _ (hin _ (by simp) h2 y hy) (by simp) (by simp) (by rw [val_learn, val_learn]; exact e))

include hb hn hw in
theorem preimage_le (ds : List Bytes) (X : Prober w Bytes) (p : Nat) (hX : X.Within A.blockBytes p) :
    prob (fun E : Cipher w A.blockBytes => (X.run (enc E) (dec E)).length ≤ N ∧ digestF A (fn (dm E)) iv n (X.run (enc E) (dec E)) ∈ ds) ≤
    2 * (p + cost A N) * ds.length / 256 ^ n := by
  classical
  obtain ⟨q, hq⟩ : ∃ q, q = p + cost A N := ⟨_, rfl⟩
  have hq' : (q : ℚ) = p + cost A N := by rw [hq]; push_cast; rfl
  rw [← hq']
  by_cases hbig : 2 * q ≤ Nat.card (Oct w)
  swap
  · rcases ds with _ | ⟨d, ds⟩
    · simp [prob]
    refine le_trans (prob_le_one' _) ?_
    rw [le_div_iff₀ (by positivity), one_mul]
    have h1 := card_large (w := w) n hn
    have h2 : 256 ^ n ≤ 2 * q * (d :: ds).length := by
      rw [List.length_cons]
      nlinarith [Nat.zero_le (2 * q * ds.length)]
    exact_mod_cast h2
  let ds' : List {d : Bytes // d.length = n} := ds.filterMap fun d => if h : d.length = n then some ⟨d, h⟩ else none
  have hds' : (ds'.length : ℚ) ≤ ds.length := by exact_mod_cast List.length_filterMap_le _ _
  have hwi := probeT_within (fun r : Bytes => ofEval (hashE A hb iv N [r])) (1 * cost A N) (fun r => ofEval_within _ _ (hashE_within A hb iv (N := N) [r])) X p hX
  rw [show p + 1 * cost A N = q by rw [hq]; simp] at hwi
  have hbd := accident hw n hn _ q hwi 0 (by omega) ds' hbig
  refine le_trans (prob_mono fun E hE => ?_) (le_trans hbd ?_)
  · obtain ⟨h1, hd⟩ := hE
    by_contra hbad
    obtain ⟨n1, -⟩ := CipherIdeal.not_bad _ _ _ _ hbad
    obtain ⟨x, hx, e⟩ := chain_end (dm E) iv (pieces A hb (X.run (enc E) (dec E))) (pieces_ne A hb _)
    have := n1 _ (probeT_trace (fun r : Bytes => ofEval (hashE A hb iv N [r])) E X (learn E x) (by
      rw [ofEval_trace]
      exact List.mem_map_of_mem (hashE_args A hb iv (dm E) _ _ (by simp) h1 x hx))) (by simp)
    refine this ?_
    rw [digestF_pieces A hb (dm E) iv n hn, e] at hd
    rw [val_learn]
    exact List.mem_filterMap.mpr ⟨_, hd, by rw [dif_pos (out n hn (dm E x)).2]⟩
  · push_cast
    have h0 : (0 : ℚ) ≤ q * (2 / 256 ^ n) := by positivity
    have := mul_le_mul_of_nonneg_left hds' h0
    calc _ = (q : ℚ) * (2 / 256 ^ n) * ds'.length := by ring
      _ ≤ _ := this
      _ = _ := by ring

include hb hn hw in
theorem second_le (hl : 8 ≤ A.lenBytes) (hN : N < 2 ^ 61) (M : Bytes) (hM : M.length < 2 ^ 61) (X : Prober w Bytes) (p : Nat)
    (hX : X.Within A.blockBytes p) :
    prob (fun E : Cipher w A.blockBytes => (X.run (enc E) (dec E)).length ≤ N ∧ X.run (enc E) (dec E) ≠ M ∧
      digestF A (fn (dm E)) iv n (X.run (enc E) (dec E)) = digestF A (fn (dm E)) iv n M) ≤
    2 * (p + cost A N + cost A M.length) * (cost A M.length + 1) / 256 ^ n := by
  classical
  obtain ⟨q, hq⟩ : ∃ q, q = p + cost A N + cost A M.length := ⟨_, rfl⟩
  have hq' : (q : ℚ) = p + cost A N + cost A M.length := by rw [hq]; push_cast; rfl
  rw [← hq']
  by_cases hbig : 2 * q ≤ Nat.card (Oct w)
  swap
  · refine le_trans (prob_le_one' _) ?_
    rw [le_div_iff₀ (by positivity), one_mul]
    have h1 := card_large (w := w) n hn
    have h2 : 256 ^ n ≤ 2 * q * (cost A M.length + 1) := by nlinarith [Nat.zero_le (2 * q * cost A M.length)]
    exact_mod_cast h2
  have hwi := chainT_within iv (pieces A hb M) _ _
    (probeT_within (fun r : Bytes => ofEval (hashE A hb iv N [r])) (1 * cost A N) (fun r => ofEval_within _ _ (hashE_within A hb iv (N := N) [r])) X p hX)
  rw [pieces_length, show cost A M.length + (p + 1 * cost A N) = q by rw [hq]; omega] at hwi
  have hbd := accident hw n hn _ q hwi (cost A M.length) (by omega) [out n hn iv] hbig
  refine le_trans (prob_mono fun E hE => ?_) (le_trans hbd ?_)
  · obtain ⟨h1, hne, he⟩ := hE
    by_contra hbad
    obtain ⟨n1, n2⟩ := CipherIdeal.not_bad _ _ _ _ hbad
    have hlen : ((calls (dm E) iv (pieces A hb M)).map (learn E)).length = cost A M.length := by
      rw [List.length_map, calls_length, pieces_length]
    rw [chainT_trace] at n1 n2
    rw [← hlen, List.take_left] at n2
    have hin := fun x hx => List.mem_append_right ((calls (dm E) iv (pieces A hb M)).map (learn E))
      (probeT_trace (fun r : Bytes => ofEval (hashE A hb iv N [r])) E X (learn E x) (by
      rw [ofEval_trace]
      exact List.mem_map_of_mem (hashE_args A hb iv (dm E) _ _ (by simp) h1 x hx)))
    rw [digestF_pieces A hb (dm E) iv n hn, digestF_pieces A hb (dm E) iv n hn] at he
    refine hne (pieces_inj A hb hl (by omega) (by omega) (chain_inj_iv (out n hn) _ _ (fun x hx => ?_) (fun x hx => ?_) (fun x hx y hy e => ?_)
      (Subtype.ext he)))
    · have := n1 _ (hin x hx) (by simp)
      rw [val_learn] at this
      simpa using this
    · have := n1 _ (List.mem_append_left _ (List.mem_map_of_mem hx)) (by simp)
      rw [val_learn] at this
      simpa using this
    · exact learn_inj E (n2 _ (hin x hx) _ (List.mem_map_of_mem hy) (by simp) (by simp) (by rw [val_learn, val_learn]; exact e))
  · have h0 : (0 : ℚ) ≤ cost A M.length := by positivity
    have h1 : (0 : ℚ) ≤ 2 / 256 ^ n := by positivity
    rw [show 2 * (q : ℚ) * (cost A M.length + 1) / 256 ^ n = (q * (cost A M.length + 1)) * (2 / 256 ^ n) by ring]
    refine mul_le_mul_of_nonneg_right ?_ h1
    simp only [List.length_cons, List.length_nil, zero_add, Nat.cast_one, mul_one]
    nlinarith

end Pad

end CryptoPure.Proofs.ShaCipher
