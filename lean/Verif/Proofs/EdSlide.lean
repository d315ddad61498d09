import Verif.Proofs.EdBase

/-! # The sliding-window recoding and the double scalar multiplication -/

namespace CryptoPure.Ed
open Model Model.Fe Model.Ed25519 Spec Spec.Ed25519 Edwards

/-- Value of a list of binary digits, least significant first. -/
def V : List Int → Int
  | [] => 0
  | x :: xs => x + 2 * V xs

def Bits (l : List Int) : Prop := ∀ x ∈ l, x = 0 ∨ x = 1

theorem V_append (a b : List Int) : V (a ++ b) = V a + 2 ^ a.length * V b := by
  induction a with
  | nil => simp [V]
  | cons x xs ih => simp only [List.cons_append, V, ih, List.length_cons, pow_succ]; ring

theorem V_replicate (n : Nat) : V (List.replicate n 0) = 0 := by
  induction n with
  | zero => rfl
  | succ n ih => rw [List.replicate_succ, V, ih]; rfl

theorem Bits.nonneg {l : List Int} (h : Bits l) : 0 ≤ V l := by
  induction l with
  | nil => exact le_refl _
  | cons x xs ih =>
    have h1 := ih fun y hy => h y (List.mem_cons_of_mem _ hy)
    have h2 := h x List.mem_cons_self
    unfold V
    omega

theorem Bits.tail {x : Int} {l : List Int} (h : Bits (x :: l)) : Bits l := fun y hy => h y (List.mem_cons_of_mem _ hy)
theorem Bits.head {x : Int} {l : List Int} (h : Bits (x :: l)) : x = 0 ∨ x = 1 := h x List.mem_cons_self
theorem Bits.cons {x : Int} {l : List Int} (hx : x = 0 ∨ x = 1) (h : Bits l) : Bits (x :: l) := by
  intro y hy
  rcases List.mem_cons.mp hy with rfl | hy
  · exact hx
  · exact h y hy
theorem Bits.zeros {l : List Int} (h : Bits l) (n : Nat) : Bits (List.replicate n 0 ++ l) := by
  intro y hy
  rcases List.mem_append.mp hy with hy | hy
  · exact Or.inl (List.eq_of_mem_replicate hy)
  · exact h y hy

theorem slideCarry_spec {l : List Int} (h : Bits l) (hv : V l < 2 ^ l.length - 1) :
    V (slideCarry l) = V l + 1 ∧ Bits (slideCarry l) ∧ (slideCarry l).length = l.length := by
  induction l with
  | nil => simp [V] at hv
  | cons x xs ih =>
    rcases h.head with rfl | rfl
    · refine ⟨?_, ?_, rfl⟩
      · simp only [slideCarry, if_true, V]; ring
      · exact h.tail.cons (Or.inr rfl)
    · have hv' : V xs < 2 ^ xs.length - 1 := by
        simp only [V, List.length_cons, pow_succ] at hv
        omega
      obtain ⟨h1, h2, h3⟩ := ih h.tail hv'
      simp only [slideCarry, one_ne_zero, if_false]
      refine ⟨?_, h2.cons (Or.inl rfl), by simp [h3]⟩
      simp only [V, h1]; ring

/-! ## One window -/

theorem get_at (pre : List Int) (y : Int) (k : Nat) (s : Int) (rest : List Int) :
    (pre ++ y :: (List.replicate k 0 ++ s :: rest)).getD (pre.length + (k + 1)) 0 = s := by
  rw [List.getD_append_right _ _ _ _ (by omega)]
  rw [show pre.length + (k + 1) - pre.length = k + 1 by omega, List.getD_cons_succ, List.getD_append_right _ _ _ _ (by simp)]
  simp

theorem get_pre (pre : List Int) (y : Int) (l : List Int) : (pre ++ y :: l).getD pre.length 0 = y := by
  rw [List.getD_append_right _ _ _ _ (le_refl _)]; simp

theorem set_pre (pre : List Int) (y z : Int) (l : List Int) : (pre ++ y :: l).set pre.length z = pre ++ z :: l := by
  rw [List.set_append_right _ _ (le_refl _)]; simp

theorem set_at (pre : List Int) (y : Int) (k : Nat) (s z : Int) (rest : List Int) :
    (pre ++ y :: (List.replicate k 0 ++ s :: rest)).set (pre.length + (k + 1)) z =
      pre ++ y :: (List.replicate k 0 ++ z :: rest) := by
  rw [List.set_append_right _ _ (by omega), show pre.length + (k + 1) - pre.length = k + 1 by omega, List.set_cons_succ,
    List.set_append_right _ _ (by simp)]
  simp

theorem zeros_snoc (k : Nat) (rest : List Int) : List.replicate k (0 : Int) ++ 0 :: rest = List.replicate (k + 1) 0 ++ rest := by
  rw [List.replicate_succ', List.append_assoc]; rfl

theorem shl8_one (b : Nat) (hb : b ≤ 6) : shl8 1 b = 2 ^ b := by
  have : b = 0 ∨ b = 1 ∨ b = 2 ∨ b = 3 ∨ b = 4 ∨ b = 5 ∨ b = 6 := by omega
  rcases this with rfl | rfl | rfl | rfl | rfl | rfl | rfl <;> decide +kernel

theorem inner_zero (m : Mode) (pre : List Int) (y : Int) (k : Nat) (rest : List Int) (bs : List Nat)
    (hlt : pre.length + (k + 1) < 256) :
    slideInner m pre.length ((k + 1) :: bs) (pre ++ y :: (List.replicate k 0 ++ 0 :: rest)) =
      slideInner m pre.length bs (pre ++ y :: (List.replicate (k + 1) 0 ++ rest)) := by
  conv_lhs => unfold slideInner
  rw [if_pos hlt, get_at, if_neg (by simp), zeros_snoc]

theorem inner_add (m : Mode) (pre : List Int) (y : Int) (k : Nat) (rest : List Int) (bs : List Nat)
    (hlt : pre.length + (k + 1) < 256) (hk : k ≤ 2) (hy0 : 0 < y) (hy : y < 2 ^ (k + 1)) :
    slideInner m pre.length ((k + 1) :: bs) (pre ++ y :: (List.replicate k 0 ++ 1 :: rest)) =
      slideInner m pre.length bs (pre ++ (y + 2 ^ (k + 1)) :: (List.replicate (k + 1) 0 ++ rest)) := by
  have hp : (2 : Int) ^ (k + 1) ≤ 8 := by
    have : k = 0 ∨ k = 1 ∨ k = 2 := by omega
    rcases this with rfl | rfl | rfl <;> norm_num
  conv_lhs => unfold slideInner
  rw [if_pos hlt, get_at, if_pos (by simp), get_pre, shl8_one _ (by omega)]
  refine bind_step (ck8_ok m (by omega) (by omega)) ?_
  rw [if_pos (by omega), set_pre, set_at, zeros_snoc]

theorem inner_sub (m : Mode) (pre : List Int) (y : Int) (rest : List Int) (bs : List Nat)
    (hlt : pre.length + 4 < 256) (hy0 : 0 < y) (hy : y < 16) :
    slideInner m pre.length (4 :: bs) (pre ++ y :: (List.replicate 3 0 ++ 1 :: rest)) =
      slideInner m pre.length bs (pre ++ (y - 16) :: (List.replicate 4 0 ++ slideCarry rest)) := by
  conv_lhs => unfold slideInner
  rw [if_pos hlt, get_at, if_pos (by simp), get_pre, shl8_one _ (by omega)]
  refine bind_step (ck8_ok m (by omega) (by omega)) ?_
  rw [if_neg (by omega)]
  refine bind_step (ck8_ok m (by omega) (by omega)) ?_
  rw [if_pos (by norm_num; omega)]
  rw [set_pre]
  have hl : pre.length + 4 = (pre ++ (y - 2 ^ 4) :: List.replicate 3 0).length := by simp
  have e : pre ++ (y - 2 ^ 4) :: (List.replicate 3 0 ++ 1 :: rest) = (pre ++ (y - 2 ^ 4) :: List.replicate 3 0) ++ (1 :: rest) := by simp
  simp only
  rw [e, List.take_left' hl.symm, List.drop_left' hl.symm]
  simp only [slideCarry, one_ne_zero, if_false]
  rw [List.append_assoc, List.cons_append, zeros_snoc]
  norm_num

theorem inner_stop (m : Mode) (pre : List Int) (y : Int) (k : Nat) (rest : List Int) (bs : List Nat)
    (hlt : pre.length + (k + 1) < 256) (hk : 4 ≤ k) (hk' : k ≤ 5) (hy0 : -16 < y) (hy : y < 16) :
    slideInner m pre.length ((k + 1) :: bs) (pre ++ y :: (List.replicate k 0 ++ 1 :: rest)) =
      some (pre ++ y :: (List.replicate k 0 ++ 1 :: rest)) := by
  have hp : (2 : Int) ^ (k + 1) = 32 ∨ (2 : Int) ^ (k + 1) = 64 := by
    have : k = 4 ∨ k = 5 := by omega
    rcases this with rfl | rfl <;> norm_num
  conv_lhs => unfold slideInner
  rw [if_pos hlt, get_at, if_pos (by simp), get_pre, shl8_one _ (by omega)]
  refine bind_step (ck8_ok m (by omega) (by omega)) ?_
  rw [if_neg (by omega)]
  refine bind_step (ck8_ok m (by omega) (by omega)) ?_
  rw [if_neg (by omega)]

theorem inner_end (m : Mode) (pre : List Int) (k : Nat) (bs : List Nat)
    (hlt : 256 ≤ pre.length + (k + 1)) (r : List Int) :
    slideInner m pre.length ((k + 1) :: bs) r = some r := by
  unfold slideInner
  rw [if_neg (by omega)]

/-- What a window leaves: an odd digit, smaller than 16 in absolute value. -/
structure Win (x : Int) (n : Nat) (y : Int) (suf : List Int) : Prop where
  odd : y % 2 = 1
  lo : -16 < y
  hi : y < 16
  len : suf.length = n
  bits : Bits suf
  val : y + 2 * V suf = x
  neg : y < 0 → 16 < x ∧ ∃ w, suf = List.replicate 4 0 ++ w

theorem V_zeros (k : Nat) (l : List Int) : V (List.replicate k 0 ++ l) = 2 ^ k * V l := by
  rw [V_append, V_replicate, List.length_replicate]; ring

/-- Windows `5` and `6`. -/
theorem inner_56 (m : Mode) (pre : List Int) {x y : Int} (k : Nat) (hk : 4 ≤ k) (hk' : k ≤ 6) (suf : List Int)
    (hl : pre.length + 1 + k + suf.length = 256)
    (hw : Win x (k + suf.length) y (List.replicate k 0 ++ suf)) :
    ∃ y' suf', slideInner m pre.length ((List.range 6).drop k |>.map (· + 1)) (pre ++ y :: (List.replicate k 0 ++ suf)) =
      some (pre ++ y' :: suf') ∧ Win x (k + suf.length) y' suf' := by
  have hb : Bits suf := fun z hz => hw.bits z (List.mem_append_right _ hz)
  induction hd : 6 - k generalizing k suf with
  | zero =>
    have : k = 6 := by omega
    subst this
    exact ⟨y, _, rfl, hw⟩
  | succ n ih =>
    have hk6 : k < 6 := by omega
    have e : ((List.range 6).drop k |>.map (· + 1)) = (k + 1) :: ((List.range 6).drop (k + 1) |>.map (· + 1)) := by
      have : k = 4 ∨ k = 5 := by omega
      rcases this with rfl | rfl <;> rfl
    rw [e]
    cases suf with
    | nil =>
      rw [inner_end m pre k _ (by simp at hl; omega)]
      exact ⟨y, _, rfl, hw⟩
    | cons s rest =>
      have hlt : pre.length + (k + 1) < 256 := by simp at hl; omega
      rcases hb.head with rfl | rfl
      · rw [inner_zero m pre y k rest _ hlt]
        have h1 := ih (k + 1) (by omega) (by omega) rest (by simp at hl; omega)
          (by rw [← zeros_snoc, show k + 1 + rest.length = k + (0 :: rest).length by simp; omega]; exact hw) hb.tail (by omega)
        rw [show k + 1 + rest.length = k + (0 :: rest).length by simp; omega] at h1
        exact h1
      · rw [inner_stop m pre y k rest _ hlt hk (by omega) hw.lo hw.hi]
        exact ⟨y, _, rfl, hw⟩

/-- Window `4`. -/
theorem inner_4 (m : Mode) (pre : List Int) {x y : Int} (suf : List Int) (hl : pre.length + 4 + suf.length = 256)
    (hx : x * 2 ^ pre.length ≤ 2 ^ 253) (hy0 : 0 < y) (hw : Win x (3 + suf.length) y (List.replicate 3 0 ++ suf)) :
    ∃ y' suf', slideInner m pre.length [4, 5, 6] (pre ++ y :: (List.replicate 3 0 ++ suf)) =
      some (pre ++ y' :: suf') ∧ Win x (3 + suf.length) y' suf' := by
  have hb : Bits suf := fun z hz => hw.bits z (List.mem_append_right _ hz)
  cases suf with
  | nil =>
    rw [show (4 : Nat) = 3 + 1 from rfl, inner_end m pre 3 _ (by simp at hl; omega)]
    exact ⟨y, _, rfl, hw⟩
  | cons s rest =>
    have hlen : 3 + (s :: rest).length = 4 + rest.length := by simp; omega
    have hlt : pre.length + 4 < 256 := by simp at hl; omega
    rcases hb.head with rfl | rfl
    · rw [show (4 : Nat) = 3 + 1 from rfl, inner_zero m pre y 3 rest _ hlt, hlen]
      exact inner_56 m pre 4 (le_refl _) (by omega) rest (by simp at hl; omega) (by rw [← hlen, ← zeros_snoc]; exact hw)
    · rw [inner_sub m pre y rest _ hlt hy0 hw.hi, hlen]
      have hv := hw.val
      rw [V_zeros] at hv
      simp only [V] at hv
      have hr0 := hb.tail.nonneg
      -- the carry does not run off the end
      have hlr : pre.length + 5 + rest.length = 256 := by simp at hl; omega
      have hcar : V rest < 2 ^ rest.length - 1 := by
        by_contra hcon
        push Not at hcon
        have h1 : (32 : Int) * 2 ^ rest.length - 15 ≤ x := by omega
        have h2 : (2 : Int) ^ pre.length * (32 * 2 ^ rest.length) = 2 ^ 256 := by
          rw [show (32 : Int) = 2 ^ 5 by norm_num, ← pow_add, ← pow_add]; congr 1; omega
        have h3 : (0 : Int) < 2 ^ pre.length := by positivity
        have h4 : (2 : Int) ^ pre.length ≤ 2 ^ 251 := pow_le_pow_right₀ (by norm_num) (by omega)
        nlinarith
      obtain ⟨c1, c2, c3⟩ := slideCarry_spec hb.tail hcar
      have h5 := inner_56 m pre (x := x) (y := y - 16) 4 (le_refl _) (by omega) (slideCarry rest) (by rw [c3]; omega) (by
        have ho := hw.odd
        refine ⟨by omega, by have := hw.hi; omega, by have := hw.hi; omega, by simp; omega, c2.zeros 4, ?_, fun _ => ⟨by omega, _, rfl⟩⟩
        rw [V_zeros, c1]
        omega)
      rw [c3] at h5
      exact h5

/-- Windows `1` to `3`. -/
theorem inner_123 (m : Mode) (pre : List Int) {x y : Int} (k : Nat) (hk : k ≤ 3) (suf : List Int)
    (hl : pre.length + 1 + k + suf.length = 256) (hx : x * 2 ^ pre.length ≤ 2 ^ 253) (hy0 : 0 < y) (hy : y < 2 ^ (k + 1))
    (hw : Win x (k + suf.length) y (List.replicate k 0 ++ suf)) :
    ∃ y' suf', slideInner m pre.length ((List.range 6).drop k |>.map (· + 1)) (pre ++ y :: (List.replicate k 0 ++ suf)) =
      some (pre ++ y' :: suf') ∧ Win x (k + suf.length) y' suf' := by
  have hb : Bits suf := fun z hz => hw.bits z (List.mem_append_right _ hz)
  induction hd : 3 - k generalizing k suf y with
  | zero =>
    have : k = 3 := by omega
    subst this
    exact inner_4 m pre suf (by omega) hx hy0 hw
  | succ n ih =>
    have hk3 : k < 3 := by omega
    have e : ((List.range 6).drop k |>.map (· + 1)) = (k + 1) :: ((List.range 6).drop (k + 1) |>.map (· + 1)) := by
      have : k = 0 ∨ k = 1 ∨ k = 2 := by omega
      rcases this with rfl | rfl | rfl <;> rfl
    rw [e]
    cases suf with
    | nil =>
      rw [inner_end m pre k _ (by simp at hl; omega)]
      exact ⟨y, _, rfl, hw⟩
    | cons s rest =>
      have hlt : pre.length + (k + 1) < 256 := by simp at hl; omega
      have hlen : k + 1 + rest.length = k + (s :: rest).length := by simp; omega
      have hpw : (2 : Int) ^ (k + 1 + 1) = 2 * 2 ^ (k + 1) := by ring
      rcases hb.head with rfl | rfl
      · rw [inner_zero m pre y k rest _ hlt, ← hlen]
        exact ih (k + 1) (by omega) rest (by simp at hl; omega) hy0 (by omega)
          (by rw [← zeros_snoc, hlen]; exact hw) hb.tail (by omega)
      · rw [inner_add m pre y k rest _ hlt (by omega) hy0 hy, ← hlen]
        have h8 : (2 : Int) ^ (k + 1) ≤ 8 := by
          have : k = 0 ∨ k = 1 ∨ k = 2 := by omega
          rcases this with rfl | rfl | rfl <;> norm_num
        refine ih (k + 1) (by omega) rest (by simp at hl; omega) (by positivity) (by omega) ?_ hb.tail (by omega)
        have ho := hw.odd
        have hv := hw.val
        have hpe : (2 : Int) ^ (k + 1) = 2 * 2 ^ k := by ring
        rw [V_zeros] at hv
        simp only [V] at hv
        refine ⟨by omega, by omega, by omega, by simp, hb.tail.zeros _, ?_, fun h => by omega⟩
        rw [V_zeros, ← hv]
        ring

theorem inner_spec (m : Mode) (pre suf : List Int) (hl : pre.length + 1 + suf.length = 256) (hb : Bits suf)
    (hx : V (1 :: suf) * 2 ^ pre.length ≤ 2 ^ 253) :
    ∃ y' suf', slideInner m pre.length [1, 2, 3, 4, 5, 6] (pre ++ 1 :: suf) = some (pre ++ y' :: suf') ∧
      Win (V (1 :: suf)) suf.length y' suf' := by
  have h := inner_123 m pre (x := V (1 :: suf)) (y := 1) 0 (by omega) suf (by omega) hx (by norm_num) (by norm_num)
    ⟨by norm_num, by norm_num, by norm_num, by simp, by simpa using hb, by simp [V], fun h => by norm_num at h⟩
  rw [Nat.zero_add] at h
  exact h

/-! ## The whole recoding -/

/-- A digit of the result. -/
def Digit (x : Int) : Prop := x = 0 ∨ (x % 2 = 1 ∧ -16 < x ∧ x < 16)

structure SlideInv (N : Int) (i : Nat) (r : List Int) : Prop where
  split : ∃ pre suf, r = pre ++ suf ∧ pre.length = i ∧ i + suf.length = 256 ∧ (∀ x ∈ pre, Digit x) ∧ Bits suf ∧
    V suf * 2 ^ i ≤ 2 ^ 253
  val : V r = N

theorem slide_step (m : Mode) {N : Int} {i : Nat} (hi : i < 256) {r : List Int} (h : SlideInv N i r) :
    ∃ r', (if r.getD i 0 ≠ 0 then slideInner m i [1, 2, 3, 4, 5, 6] r else some r) = some r' ∧ SlideInv N (i + 1) r' := by
  obtain ⟨⟨pre, suf, rfl, rfl, hl, hd, hb, hx⟩, hv⟩ := h
  cases suf with
  | nil => simp at hl; omega
  | cons s rest =>
    have hr0 := hb.tail.nonneg
    have hlr : pre.length + 1 + rest.length = 256 := by simp at hl; omega
    have hp0 : (0 : Int) < 2 ^ pre.length := by positivity
    rw [get_pre]
    rcases hb.head with rfl | rfl
    · rw [if_neg (by simp)]
      refine ⟨_, rfl, ⟨pre ++ [0], rest, by simp, by simp, by omega, ?_, hb.tail, ?_⟩, hv⟩
      · intro x hx
        rcases List.mem_append.mp hx with hx | hx
        · exact hd x hx
        · rw [List.mem_singleton.mp hx]; exact Or.inl rfl
      · simp only [V] at hx
        rw [pow_succ]
        linarith
    · rw [if_pos (by simp)]
      obtain ⟨y, suf', e, w⟩ := inner_spec m pre rest hlr hb.tail hx
      refine ⟨_, e, ⟨pre ++ [y], suf', by simp, by simp, by rw [w.len]; omega, ?_, w.bits, ?_⟩, ?_⟩
      · intro x hx
        rcases List.mem_append.mp hx with hx | hx
        · exact hd x hx
        · rw [List.mem_singleton.mp hx]; exact Or.inr ⟨w.odd, w.lo, w.hi⟩
      · have hwv := w.val
        rw [pow_succ]
        by_cases hy : y < 0
        · obtain ⟨h16, u, hu⟩ := w.neg hy
          rw [hu, V_zeros] at hwv ⊢
          generalize V (1 :: rest) = x at *
          -- the new tail is a multiple of 32
          have hi5 : pre.length + 5 ≤ 253 := by
            by_contra hc
            have : (2 : Int) ^ 249 ≤ 2 ^ pre.length := pow_le_pow_right₀ (by norm_num) (by omega)
            nlinarith
          have hK : (2 : Int) ^ 253 = 2 ^ pre.length * (32 * 2 ^ (248 - pre.length)) := by
            rw [show (32 : Int) = 2 ^ 5 by norm_num, ← pow_add, ← pow_add]; congr 1; omega
          rw [hK] at hx ⊢
          have hx' : x ≤ 32 * 2 ^ (248 - pre.length) := by
            by_contra hc
            push Not at hc
            nlinarith
          have hlo := w.lo
          have : V u ≤ 2 ^ (248 - pre.length) := by omega
          nlinarith
        · have : 2 * V suf' ≤ V (1 :: rest) := by omega
          nlinarith
      · rw [← hv, V_append, V_append, V, w.val]

theorem slide_fold (m : Mode) {N : Int} {r : List Int} (h : SlideInv N 0 r) (n : Nat) (hn : n ≤ 256) :
    ∃ r', (List.range n).foldlM (fun r i => if r.getD i 0 ≠ 0 then slideInner m i [1, 2, 3, 4, 5, 6] r else some r) r = some r' ∧
      SlideInv N n r' := by
  induction n with
  | zero => exact ⟨r, rfl, h⟩
  | succ n ih =>
    obtain ⟨s, e, h1⟩ := ih (by omega)
    obtain ⟨s', e', h2⟩ := slide_step m (by omega) h1
    refine ⟨s', ?_, h2⟩
    rw [List.range_succ, List.foldlM_append, e]
    exact bind_step rfl (bind_step e' rfl)

theorem bit_val : ∀ b : U8, ∀ k : Fin 8, ((1 &&& (b >>> k.val) : U8).toNat : Int) = (b.toNat / 2 ^ k.val % 2 : Nat) := by
  decide +kernel

theorem V_bits_byte (a : Bytes) (n : Nat) :
    V ((List.range (8 * n)).map fun i => ((1 &&& (a.getD (i / 8) 0 >>> (i % 8)) : U8).toNat : Int)) = leNat (a.take n) := by
  induction n with
  | zero => simp [V, leNat]
  | succ n ih =>
    rw [show 8 * (n + 1) = 8 * n + 8 by ring, List.range_add, List.map_append, V_append, ih, List.length_map, List.length_range,
      leNat_take_succ, List.map_map]
    have e : (List.range 8).map ((fun i => ((1 &&& (a.getD (i / 8) 0 >>> (i % 8)) : U8).toNat : Int)) ∘ fun x => 8 * n + x) =
        (List.range 8).map fun k => (((a.getD n 0).toNat / 2 ^ k % 2 : Nat) : Int) := by
      refine List.map_congr_left fun k hk => ?_
      rw [List.mem_range] at hk
      have := bit_val (a.getD n 0) ⟨k, hk⟩
      simp only [Function.comp]
      rw [show (8 * n + k) / 8 = n by omega, show (8 * n + k) % 8 = k by omega]
      exact this
    rw [e]
    have hb := (a.getD n 0).isLt
    generalize (a.getD n 0).toNat = x at *
    have hx : V ((List.range 8).map fun k => ((x / 2 ^ k % 2 : Nat) : Int)) = x := by
      simp only [List.range_succ, List.range_zero, List.nil_append, List.cons_append, List.map_cons, List.map_nil, V]
      norm_num only
      omega
    rw [hx]
    have h256 : (2 : Int) ^ (8 * n) = 256 ^ n := by rw [pow_mul]; norm_num
    push_cast
    rw [h256]

theorem slideBits_spec (a : Bytes) : (slideBits a).length = 256 ∧ Bits (slideBits a) ∧ V (slideBits a) = leNat (a.take 32) := by
  refine ⟨by simp [slideBits], ?_, V_bits_byte a 32⟩
  intro x hx
  unfold slideBits at hx
  obtain ⟨i, -, rfl⟩ := List.mem_map.mp hx
  have := bit_val (a.getD (i / 8) 0) ⟨i % 8, by omega⟩
  simp only at this
  rw [this]
  omega

/-- The recoding. -/
theorem slide_spec (m : Mode) {a : Bytes} (ha : 32 ≤ a.length) (hN : leNat (a.take 32) ≤ 2 ^ 253) :
    ∃ r, slide m a = some r ∧ r.length = 256 ∧ (∀ x ∈ r, Digit x) ∧ V r = leNat (a.take 32) := by
  obtain ⟨b1, b2, b3⟩ := slideBits_spec a
  have hN' : ((leNat (a.take 32) : Nat) : Int) ≤ 2 ^ 253 := by exact_mod_cast hN
  have h0 : SlideInv (leNat (a.take 32)) 0 (slideBits a) := by
    refine ⟨⟨[], slideBits a, List.nil_append _ |>.symm, rfl, by rw [b1], fun x hx => absurd hx (by simp), b2, ?_⟩, b3⟩
    rw [b3, pow_zero, mul_one]
    exact hN'
  obtain ⟨r, e, ⟨⟨pre, suf, rfl, h1, h2, h3, -, -⟩, hv⟩⟩ := slide_fold m h0 256 (le_refl _)
  have hs : suf = [] := List.eq_nil_of_length_eq_zero (by omega)
  subst hs
  refine ⟨_, bind_step (a := ()) ?_ e, by simp [h1], by simpa using h3, hv⟩
  simp [assert, ha]

/-! ## The double scalar multiplication -/

theorem cachedTable_spec (m : Mode) {ga : GeP3} {A : Pt25519} (h : RepP3 ga A) :
    ∃ ai, cachedTable m ga = some ai ∧ ∀ j, j < 8 → ∃ q, ai[j]? = some q ∧ RepCached q ((2 * j + 1) • A) := by
  obtain ⟨c0, e0, r0⟩ := p3ToCached_spec m h
  obtain ⟨t, e1, r1⟩ := p3Dbl_spec m h
  obtain ⟨a2, e2, r2⟩ := p1p1ToP3_spec m r1
  have next : ∀ {c : GeCached} {P : Pt25519}, RepCached c P → ∃ c', (do
      let t ← geAdd m a2 c
      let u ← p1p1ToP3 m t
      p3ToCached m u) = some c' ∧ RepCached c' (A + A + P) := by
    intro c P hc
    obtain ⟨t, f1, s1⟩ := geAdd_spec m r2 hc
    obtain ⟨u, f2, s2⟩ := p1p1ToP3_spec m s1
    obtain ⟨c', f3, s3⟩ := p3ToCached_spec m s2
    exact ⟨c', bind_step f1 <| bind_step f2 f3, s3⟩
  obtain ⟨c1, f1, s1⟩ := next r0
  obtain ⟨c2, f2, s2⟩ := next s1
  obtain ⟨c3, f3, s3⟩ := next s2
  obtain ⟨c4, f4, s4⟩ := next s3
  obtain ⟨c5, f5, s5⟩ := next s4
  obtain ⟨c6, f6, s6⟩ := next s5
  obtain ⟨c7, f7, s7⟩ := next s6
  refine ⟨[c0, c1, c2, c3, c4, c5, c6, c7], ?_, fun j hj => ?_⟩
  · exact bind_step e0 <| bind_step e1 <| bind_step e2 <| bind_step f1 <| bind_step f2 <| bind_step f3 <| bind_step f4 <|
      bind_step f5 <| bind_step f6 <| bind_step f7 rfl
  · have hj' : j = 0 ∨ j = 1 ∨ j = 2 ∨ j = 3 ∨ j = 4 ∨ j = 5 ∨ j = 6 ∨ j = 7 := by omega
    rcases hj' with rfl | rfl | rfl | rfl | rfl | rfl | rfl | rfl
    · exact ⟨c0, rfl, by convert r0 using 1; norm_num⟩
    · exact ⟨c1, rfl, by convert s1 using 1; norm_num; abel⟩
    · exact ⟨c2, rfl, by convert s2 using 1; norm_num; abel⟩
    · exact ⟨c3, rfl, by convert s3 using 1; norm_num; abel⟩
    · exact ⟨c4, rfl, by convert s4 using 1; norm_num; abel⟩
    · exact ⟨c5, rfl, by convert s5 using 1; norm_num; abel⟩
    · exact ⟨c6, rfl, by convert s6 using 1; norm_num; abel⟩
    · exact ⟨c7, rfl, by convert s7 using 1; norm_num; abel⟩

theorem digit_get {r : List Int} (h : ∀ x ∈ r, Digit x) (i : Nat) : Digit (r.getD i 0) := by
  by_cases hi : i < r.length
  · rw [List.getD_eq_getElem _ _ hi]; exact h _ (List.getElem_mem hi)
  · rw [List.getD_eq_default _ _ (by omega)]; exact Or.inl rfl

/-- A positive odd digit selects its multiple. -/
theorem digit_pos {x : Int} (h : Digit x) (hx : 0 < x) : x.toNat / 2 < 8 ∧ ((2 * (x.toNat / 2) + 1 : Nat) : Int) = x := by
  rcases h with h | ⟨h1, h2, h3⟩ <;> omega

theorem digit_neg {x : Int} (h : Digit x) (hx : x < 0) : (-x).toNat / 2 < 8 ∧ ((2 * ((-x).toNat / 2) + 1 : Nat) : Int) = -x := by
  rcases h with h | ⟨h1, h2, h3⟩ <;> omega

theorem addDigit (m : Mode) {t : GeP1p1} {P A : Pt25519} (ht : RepP1p1 t P) {ai : List GeCached}
    (hai : ∀ j, j < 8 → ∃ q, ai[j]? = some q ∧ RepCached q ((2 * j + 1) • A)) {x : Int} (hx : Digit x) :
    ∃ t', (if x > 0 then do
        let u ← p1p1ToP3 m t
        let q ← ai[x.toNat / 2]?
        geAdd m u q
      else if x < 0 then do
        let u ← p1p1ToP3 m t
        let n ← ck8 m (-x)
        let q ← ai[n.toNat / 2]?
        geSub m u q
      else some t) = some t' ∧ RepP1p1 t' (P + x • A) := by
  obtain ⟨u, e1, r1⟩ := p1p1ToP3_spec m ht
  rcases lt_trichotomy x 0 with h | h | h
  · rw [if_neg (by omega), if_pos h]
    obtain ⟨d1, d2⟩ := digit_neg hx h
    obtain ⟨q, e2, r2⟩ := hai _ d1
    obtain ⟨t', e3, r3⟩ := geSub_spec m r1 r2
    refine ⟨t', bind_step e1 <| bind_step (ck8_ok m (by rcases hx with h | h <;> omega) (by rcases hx with h | h <;> omega)) <| bind_step e2 e3, ?_⟩
    rw [← natCast_zsmul, d2, neg_smul, neg_neg] at r3
    exact r3
  · subst h
    exact ⟨t, by simp, by simpa using ht⟩
  · rw [if_pos h]
    obtain ⟨d1, d2⟩ := digit_pos hx h
    obtain ⟨q, e2, r2⟩ := hai _ d1
    obtain ⟨t', e3, r3⟩ := geAdd_spec m r1 r2
    refine ⟨t', bind_step e1 <| bind_step e2 e3, ?_⟩
    rw [← natCast_zsmul, d2] at r3
    exact r3

theorem addDigitB (m : Mode) {t : GeP1p1} {P : Pt25519} (ht : RepP1p1 t P) {x : Int} (hx : Digit x) :
    ∃ t', (if x > 0 then do
        let u ← p1p1ToP3 m t
        let q ← BI[x.toNat / 2]?
        geMadd m u (precompFrom q)
      else if x < 0 then do
        let u ← p1p1ToP3 m t
        let n ← ck8 m (-x)
        let q ← BI[n.toNat / 2]?
        geMsub m u (precompFrom q)
      else some t) = some t' ∧ RepP1p1 t' (P + x • G) := by
  obtain ⟨u, e1, r1⟩ := p1p1ToP3_spec m ht
  rcases lt_trichotomy x 0 with h | h | h
  · rw [if_neg (by omega), if_pos h]
    obtain ⟨d1, d2⟩ := digit_neg hx h
    obtain ⟨q, e2, r2⟩ := bi_entry _ d1
    obtain ⟨t', e3, r3⟩ := geMsub_spec m r1 r2
    refine ⟨t', bind_step e1 <| bind_step (ck8_ok m (by rcases hx with h | h <;> omega) (by rcases hx with h | h <;> omega)) <| bind_step e2 e3, ?_⟩
    rw [← natCast_zsmul, d2, neg_smul, neg_neg] at r3
    exact r3
  · subst h
    exact ⟨t, by simp, by simpa using ht⟩
  · rw [if_pos h]
    obtain ⟨d1, d2⟩ := digit_pos hx h
    obtain ⟨q, e2, r2⟩ := bi_entry _ d1
    obtain ⟨t', e3, r3⟩ := geMadd_spec m r1 r2
    refine ⟨t', bind_step e1 <| bind_step e2 e3, ?_⟩
    rw [← natCast_zsmul, d2] at r3
    exact r3

theorem doubleStep_spec (m : Mode) {as bs : List Int} {ai : List GeCached} {A P : Pt25519} {r : GeP2} (hr : RepP2 r P)
    (has : ∀ x ∈ as, Digit x) (hbs : ∀ x ∈ bs, Digit x)
    (hai : ∀ j, j < 8 → ∃ q, ai[j]? = some q ∧ RepCached q ((2 * j + 1) • A)) (i : Nat) :
    ∃ r', doubleStep m as bs ai r i = some r' ∧ RepP2 r' (P + P + as.getD i 0 • A + bs.getD i 0 • G) := by
  obtain ⟨t1, e1, r1⟩ := p2Dbl_spec m hr
  obtain ⟨t2, e2, r2⟩ := addDigit m r1 hai (digit_get has i)
  obtain ⟨t3, e3, r3⟩ := addDigitB m r2 (digit_get hbs i)
  obtain ⟨r', e4, r4⟩ := p1p1ToP2_spec m r3
  exact ⟨r', bind_step e1 <| bind_step e2 <| bind_step e3 e4, r4⟩

theorem V_drop (r : List Int) (n : Nat) : V (r.drop n) = r.getD n 0 + 2 * V (r.drop (n + 1)) := by
  by_cases h : n < r.length
  · rw [List.drop_eq_getElem_cons h, V, List.getD_eq_getElem _ _ h]
  · rw [List.drop_eq_nil_of_le (by omega), List.drop_eq_nil_of_le (by omega), List.getD_eq_default _ _ (by omega)]; rfl

theorem doubleLoop_spec (m : Mode) {as bs : List Int} {ai : List GeCached} {A : Pt25519}
    (has : ∀ x ∈ as, Digit x) (hbs : ∀ x ∈ bs, Digit x)
    (hai : ∀ j, j < 8 → ∃ q, ai[j]? = some q ∧ RepCached q ((2 * j + 1) • A)) (n : Nat) {r : GeP2}
    (hr : RepP2 r (V (as.drop n) • A + V (bs.drop n) • G)) :
    ∃ r', (List.range n).reverse.foldlM (doubleStep m as bs ai) r = some r' ∧ RepP2 r' (V as • A + V bs • G) := by
  induction n generalizing r with
  | zero => exact ⟨r, rfl, by simpa using hr⟩
  | succ n ih =>
    obtain ⟨r1, e1, h1⟩ := doubleStep_spec m hr has hbs hai n
    rw [List.range_succ, List.reverse_append, List.reverse_singleton, List.singleton_append, List.foldlM_cons]
    obtain ⟨r', e2, h2⟩ := ih (r := r1) (by
      rw [V_drop as n, V_drop bs n]
      convert h1 using 1
      generalize V (as.drop (n + 1)) = x
      generalize V (bs.drop (n + 1)) = y
      simp only [add_smul, two_mul]
      abel)
    exact ⟨r', bind_step e1 e2, h2⟩

theorem topIndex_spec (as bs : List Int) (n : Nat) (ha : as.length ≤ n) (hb : bs.length ≤ n) :
    V (as.drop (topIndex as bs n)) = 0 ∧ V (bs.drop (topIndex as bs n)) = 0 := by
  have h0 : V (as.drop n) = 0 ∧ V (bs.drop n) = 0 := by
    rw [List.drop_eq_nil_of_le ha, List.drop_eq_nil_of_le hb]; exact ⟨rfl, rfl⟩
  clear ha hb
  induction n with
  | zero => exact h0
  | succ n ih =>
    unfold topIndex
    split
    · exact h0
    · next h =>
      push Not at h
      refine ih ?_
      rw [V_drop as n, V_drop bs n, h.1, h.2, h0.1, h0.2]
      simp

/-- `[a]A + [b]B`. -/
theorem doubleScalarmult_spec (m : Mode) {a b : Bytes} {ga : GeP3} {A : Pt25519} (hA : RepP3 ga A) (ha : 32 ≤ a.length)
    (hb : b.length = 32) (hNa : leNat (a.take 32) ≤ 2 ^ 253) (hNb : leNat b ≤ 2 ^ 253) :
    ∃ r, doubleScalarmult m a ga b = some r ∧ RepP2 r (leNat (a.take 32) • A + leNat b • G) := by
  have htb : b.take 32 = b := List.take_of_length_le (by omega)
  obtain ⟨as, e1, l1, d1, v1⟩ := slide_spec m ha hNa
  obtain ⟨bs, e2, l2, d2, v2⟩ := slide_spec m (a := b) (by omega) (by rw [htb]; exact hNb)
  obtain ⟨ai, e3, hai⟩ := cachedTable_spec m hA
  obtain ⟨t1, t2⟩ := topIndex_spec as bs 256 (by omega) (by omega)
  obtain ⟨r, e4, h4⟩ := doubleLoop_spec m d1 d2 hai (topIndex as bs 256) (r := p2Zero) (by
    rw [t1, t2]; simpa using p2Zero_rep)
  refine ⟨r, bind_step (a := ()) (by simp [assert, hb]) <| bind_step e1 <| bind_step e2 <| bind_step e3 e4, ?_⟩
  rw [v1, v2, htb, natCast_zsmul, natCast_zsmul] at h4
  exact h4

end CryptoPure.Ed
