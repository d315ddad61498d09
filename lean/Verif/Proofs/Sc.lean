import Verif.Proofs.ScStore
import Verif.Spec.Ed25519

/-! # `sc_reduce` and `sc_muladd` compute modulo the group order -/

namespace CryptoPure.Model.Sc
open SL Fe Spec.Ed25519

/-! ## Loads -/

theorem leNat_drop (s : Bytes) (k : Nat) : leNat (s.drop k) = leNat s / 2 ^ (8 * k) := by
  induction s generalizing k with
  | nil => simp [leNat]
  | cons b s ih =>
    cases k with
    | zero => simp
    | succ k =>
      have hb := b.isLt
      rw [List.drop_succ_cons, ih, leNat, show 8 * (k + 1) = 8 + 8 * k by ring, Nat.pow_add, ← Nat.div_div_eq_div_mul]
      congr 1
      omega

theorem leNat_getD (s : Bytes) : leNat s = (s.getD 0 0).toNat + 256 * leNat (s.drop 1) := by
  cases s with
  | nil => simp [leNat]
  | cons b s => simp [leNat]

theorem load3_eq (s : Bytes) : (load3 s).toNat = leNat s % 2 ^ 24 := by
  rw [load3_toNat, leNat_getD s, leNat_getD (s.drop 1), leNat_getD ((s.drop 1).drop 1)]
  rw [show (s.drop 1).getD 0 0 = s.getD 1 0 by simp [List.getD_eq_getElem?_getD],
    show ((s.drop 1).drop 1).getD 0 0 = s.getD 2 0 by simp [List.getD_eq_getElem?_getD]]
  have h0 := (s.getD 0 0).isLt
  have h1 := (s.getD 1 0).isLt
  have h2 := (s.getD 2 0).isLt
  omega

theorem load4_eq (s : Bytes) : (load4 s).toNat = leNat s % 2 ^ 32 := by
  rw [load4_toNat, leNat_getD s, leNat_getD (s.drop 1), leNat_getD ((s.drop 1).drop 1),
    leNat_getD (((s.drop 1).drop 1).drop 1)]
  rw [show (s.drop 1).getD 0 0 = s.getD 1 0 by simp [List.getD_eq_getElem?_getD],
    show ((s.drop 1).drop 1).getD 0 0 = s.getD 2 0 by simp [List.getD_eq_getElem?_getD],
    show (((s.drop 1).drop 1).drop 1).getD 0 0 = s.getD 3 0 by simp [List.getD_eq_getElem?_getD]]
  have h0 := (s.getD 0 0).isLt
  have h1 := (s.getD 1 0).isLt
  have h2 := (s.getD 2 0).isLt
  have h3 := (s.getD 3 0).isLt
  omega

theorem lim_eq (x : U64) : lim x = ((x.toNat % 2 ^ 21 : Nat) : Int) := by
  have h : (2097151 &&& x).toNat = x.toNat % 2 ^ 21 := by
    rw [BitVec.toNat_and, Nat.and_comm]
    exact Nat.and_two_pow_sub_one_eq_mod _ 21
  have hl := Nat.mod_lt x.toNat (show 2 ^ 21 > 0 by norm_num)
  rw [lim, toInt_small (by omega), h]

/-- Digit of `N` in base 2^21. -/
def dg (N i : Nat) : Nat := N / 2 ^ (21 * i) % 2 ^ 21

theorem shift_mod (N a b c : Nat) (h : b + c ≤ a) : N % 2 ^ a / 2 ^ b % 2 ^ c = N / 2 ^ b % 2 ^ c := by
  obtain ⟨d, rfl⟩ := Nat.exists_eq_add_of_le h
  rw [Nat.add_assoc, Nat.pow_add 2 b, Nat.mod_mul_right_div_self, Nat.mod_mod_of_dvd]
  exact Nat.pow_dvd_pow 2 (Nat.le_add_right c d)

theorem lim_load3 (s : Bytes) (k r i : Nat) (h : 8 * k + r = 21 * i) (hr : r ≤ 3) :
    lim (load3 (s.drop k) >>> r) = (dg (leNat s) i : Nat) := by
  rw [lim_eq, BitVec.toNat_ushiftRight, Nat.shiftRight_eq_div_pow, load3_eq, leNat_drop, shift_mod _ _ _ _ (by omega),
    Nat.div_div_eq_div_mul, ← Nat.pow_add, h, dg]

theorem lim_load4 (s : Bytes) (k r i : Nat) (h : 8 * k + r = 21 * i) (hr : r ≤ 11) :
    lim (load4 (s.drop k) >>> r) = (dg (leNat s) i : Nat) := by
  rw [lim_eq, BitVec.toNat_ushiftRight, Nat.shiftRight_eq_div_pow, load4_eq, leNat_drop, shift_mod _ _ _ _ (by omega),
    Nat.div_div_eq_div_mul, ← Nat.pow_add, h, dg]

theorem top_load4 (s : Bytes) (k r i t : Nat) (h : 8 * k + r = 21 * i) (hr : r + t = 32) :
    (load4 (s.drop k) >>> r).toInt = ((leNat s / 2 ^ (21 * i) % 2 ^ t : Nat) : Int) := by
  have h1 := load4_lt (s.drop k)
  have h2 : (load4 (s.drop k) >>> r).toNat ≤ (load4 (s.drop k)).toNat := by
    rw [BitVec.toNat_ushiftRight, Nat.shiftRight_eq_div_pow]; exact Nat.div_le_self _ _
  rw [toInt_small (by omega), BitVec.toNat_ushiftRight, Nat.shiftRight_eq_div_pow, load4_eq, leNat_drop, ← h,
    Nat.pow_add 2 (8 * k), ← Nat.div_div_eq_div_mul, ← hr, Nat.pow_add 2 r, Nat.mod_mul_right_div_self]

theorem lim_load3' (s : Bytes) (k i : Nat) (h : 8 * k = 21 * i) : lim (load3 (s.drop k)) = (dg (leNat s) i : Nat) := by
  have := lim_load3 s k 0 i h (by norm_num)
  rwa [BitVec.ushiftRight_zero] at this

/-- `n` digits and a top part of `t` bits. -/
def digs (N n t : Nat) : List Int :=
  ((List.range n).map fun i => ((dg N i : Nat) : Int)) ++ [((N / 2 ^ (21 * n) % 2 ^ t : Nat) : Int)]

theorem load12_eq (a : Bytes) : load12 a = digs (leNat a) 11 25 := by
  have h0 := lim_load3' a 0 0 rfl
  rw [List.drop_zero] at h0
  unfold load12 digs
  rw [h0, lim_load4 a 2 5 1 rfl (by norm_num), lim_load3 a 5 2 2 rfl (by norm_num), lim_load4 a 7 7 3 rfl (by norm_num),
    lim_load4 a 10 4 4 rfl (by norm_num), lim_load3 a 13 1 5 rfl (by norm_num), lim_load4 a 15 6 6 rfl (by norm_num),
    lim_load3 a 18 3 7 rfl (by norm_num), lim_load3' a 21 8 rfl, lim_load4 a 23 5 9 rfl (by norm_num),
    lim_load3 a 26 2 10 rfl (by norm_num), top_load4 a 28 7 11 25 rfl rfl]
  rfl

theorem load24_eq (a : Bytes) : load24 a = digs (leNat a) 23 29 := by
  have h0 := lim_load3' a 0 0 rfl
  rw [List.drop_zero] at h0
  unfold load24 digs
  rw [h0, lim_load4 a 2 5 1 rfl (by norm_num), lim_load3 a 5 2 2 rfl (by norm_num), lim_load4 a 7 7 3 rfl (by norm_num),
    lim_load4 a 10 4 4 rfl (by norm_num), lim_load3 a 13 1 5 rfl (by norm_num), lim_load4 a 15 6 6 rfl (by norm_num),
    lim_load3 a 18 3 7 rfl (by norm_num), lim_load3' a 21 8 rfl, lim_load4 a 23 5 9 rfl (by norm_num),
    lim_load3 a 26 2 10 rfl (by norm_num), lim_load4 a 28 7 11 rfl (by norm_num), lim_load4 a 31 4 12 rfl (by norm_num),
    lim_load3 a 34 1 13 rfl (by norm_num), lim_load4 a 36 6 14 rfl (by norm_num), lim_load3 a 39 3 15 rfl (by norm_num),
    lim_load3' a 42 16 rfl, lim_load4 a 44 5 17 rfl (by norm_num), lim_load3 a 47 2 18 rfl (by norm_num),
    lim_load4 a 49 7 19 rfl (by norm_num), lim_load4 a 52 4 20 rfl (by norm_num), lim_load3 a 55 1 21 rfl (by norm_num),
    lim_load4 a 57 6 22 rfl (by norm_num), top_load4 a 60 3 23 29 rfl rfl]
  rfl

theorem digs_length (N n t : Nat) : (digs N n t).length = n + 1 := by simp [digs]

theorem digs_getD (N n t i : Nat) (h : i < n) : (digs N n t).getD i 0 = ((dg N i : Nat) : Int) := by
  unfold digs
  rw [List.getD_append _ _ _ _ (by simpa using h), List.getD_eq_getElem?_getD, List.getElem?_map, List.getElem?_range h]
  rfl

theorem digs_top (N n t : Nat) : (digs N n t).getD n 0 = ((N / 2 ^ (21 * n) % 2 ^ t : Nat) : Int) := by
  unfold digs
  rw [List.getD_append_right _ _ _ _ (by simp)]
  simp

/-! ## Weighted sums of 21-bit limbs -/

/-- Limb weights, slots `o .. o + n - 1`. -/
def WS (o n : Nat) : List (Nat × Int) := (List.range n).map fun i => (o + i, 2 ^ (21 * i))

theorem wsum_append' (env : Env) (a b : List (Nat × Int)) : wsum env (a ++ b) = wsum env a + wsum env b := by
  induction a with
  | nil => simp [wsum]
  | cons w a ih => rw [List.cons_append, wsum, wsum, ih]; ring

theorem wsum_succ (env : Env) (o n : Nat) :
    wsum env (WS o (n + 1)) = wsum env (WS o n) + 2 ^ (21 * n) * env.getD (o + n) 0 := by
  rw [WS, List.range_succ, List.map_append, wsum_append']
  simp [wsum, WS]

theorem wsum_dg (env : Env) (o n N : Nat) (h : ∀ i, i < n → env.getD (o + i) 0 = ((dg N i : Nat) : Int)) :
    wsum env (WS o n) = ((N % 2 ^ (21 * n) : Nat) : Int) := by
  induction n with
  | zero => simp [WS, wsum, Nat.mod_one]
  | succ n ih =>
    rw [wsum_succ, ih fun i hi => h i (by omega), h n (by omega), show 21 * (n + 1) = 21 * n + 21 by ring, Nat.pow_add,
      Nat.mod_mul, dg]
    push_cast
    rfl

theorem wsum_digs (env : Env) (o n t N : Nat) (h : ∀ i, i < n + 1 → env.getD (o + i) 0 = (digs N n t).getD i 0) :
    wsum env (WS o (n + 1)) = ((N % 2 ^ (21 * n + t) : Nat) : Int) := by
  rw [wsum_succ, wsum_dg env o n N fun i hi => by rw [h i (by omega), digs_getD _ _ _ _ hi], h n (by omega), digs_top,
    Nat.pow_add, Nat.mod_mul]
  push_cast
  rfl

theorem wsum_bounds (env : Env) (o n : Nat) (h : ∀ i, i < n → 0 ≤ env.getD (o + i) 0 ∧ env.getD (o + i) 0 ≤ 2 ^ 21 - 1) :
    0 ≤ wsum env (WS o n) ∧ wsum env (WS o n) ≤ 2 ^ (21 * n) - 1 := by
  induction n with
  | zero => simp [WS, wsum]
  | succ n ih =>
    obtain ⟨a, b⟩ := ih fun i hi => h i (by omega)
    obtain ⟨c, d⟩ := h n (by omega)
    have hp : (0 : Int) < 2 ^ (21 * n) := by positivity
    rw [wsum_succ, show 21 * (n + 1) = 21 * n + 21 by ring, pow_add]
    constructor
    · positivity
    · nlinarith

/-! ## The programs -/

/-- `L - 2^252`. -/
def cz : Int := 27742317777372353535851937790883648493

theorem L_int : ((L : Nat) : Int) = 2 ^ 252 + cz := by norm_num [L, cz]

def limIv (n : Nat) (t : Nat) : List Iv := List.replicate n (0, 2 ^ 21 - 1) ++ [(0, 2 ^ t - 1)]
def headIv (o : Nat) : List (Nat × Iv) := (o + 12, (-1, 0)) :: (List.range 12).map fun i => (o + i, (0, 2 ^ 21 - 1))
def tailIv (o : Nat) : List (Nat × Iv) := (List.range 11).map fun i => (o + i, (0, 2 ^ 21 - 1))
def redHead : List Stmt := ScReduce.part1 ++ ScReduce.part2
def redTail : List Stmt := ScReduce.part3 ++ ScReduce.part4
def mulMid : List Stmt := ScMuladd.part2 ++ ScMuladd.part3
def mulHead : List Stmt := ScMuladd.part1 ++ mulMid
def mulTail : List Stmt := ScMuladd.part4 ++ ScMuladd.part5

theorem red_prog : ScReduce.prog = redHead ++ redTail := by
  simp only [ScReduce.prog, redHead, redTail, List.append_assoc]
theorem mul_prog : ScMuladd.prog = mulHead ++ mulTail := by
  simp only [ScMuladd.prog, mulHead, mulMid, mulTail, List.append_assoc]

theorem red_head_iv : ivCheck redHead (limIv 23 29 ++ zeroIv (ScReduce.size - 24)) (headIv 0) = true := by decide +kernel
theorem red_iv : ivCheck ScReduce.prog (limIv 23 29 ++ zeroIv (ScReduce.size - 24)) (tailIv 0) = true := by decide +kernel
theorem mul_head_iv : ivCheck mulHead (limIv 11 25 ++ limIv 11 25 ++ limIv 11 25 ++ zeroIv (ScMuladd.size - 36))
    (headIv 36) = true := by decide +kernel
theorem mul_iv : ivCheck ScMuladd.prog (limIv 11 25 ++ limIv 11 25 ++ limIv 11 25 ++ zeroIv (ScMuladd.size - 36))
    (tailIv 36) = true := by decide +kernel
theorem red_head_poly : polyCheck redHead 24 ScReduce.size (2 ^ 252 + cz) (WS 0 13) [] [] (WS 0 24) = true := by
  decide +kernel
theorem mul_mul_poly : polyCheck ScMuladd.part1 36 ScMuladd.size 0 (WS 36 24) (WS 0 12) (WS 12 12) (WS 24 12) = true := by
  decide +kernel
theorem mul_mid_poly : polyCheck mulMid ScMuladd.size ScMuladd.size (2 ^ 252 + cz) (WS 36 13) [] [] (WS 36 24) = true := by
  decide +kernel
theorem red_tail_poly : polyCheck redTail ScReduce.size ScReduce.size 0 (WS 0 12) [] [] ((12, -cz) :: WS 0 12) = true := by
  decide +kernel
theorem mul_tail_poly : polyCheck mulTail ScMuladd.size ScMuladd.size 0 (WS 36 12) [] [] ((48, -cz) :: WS 36 12) = true := by
  decide +kernel

theorem sat_digs (N n t : Nat) : Sat (limIv n t) (digs N n t) := by
  refine ⟨by simp [limIv, digs_length], fun i => ?_⟩
  rcases Nat.lt_trichotomy i n with h | h | h
  · rw [digs_getD _ _ _ _ h, limIv, List.getD_append _ _ _ _ (by simpa using h), List.getD_eq_getElem?_getD,
      List.getElem?_replicate, if_pos h]
    have := Nat.mod_lt (N / 2 ^ (21 * i)) (show 2 ^ 21 > 0 by norm_num)
    unfold In dg
    simp only [Option.getD_some]
    omega
  · subst h
    rw [digs_top, limIv, List.getD_append_right _ _ _ _ (by simp)]
    have := Nat.mod_lt (N / 2 ^ (21 * i)) (show 2 ^ t > 0 by positivity)
    simp only [List.length_replicate, Nat.sub_self, List.getD_cons_zero, In]
    zify at this
    constructor
    · exact Int.natCast_nonneg _
    · push_cast; omega
  · rw [List.getD_eq_default _ _ (by simp [limIv]; omega), List.getD_eq_default _ _ (by rw [digs_length]; omega)]
    exact ⟨le_refl _, le_refl _⟩

/-- A nonnegative integer below `L` congruent to `N` is the remainder. -/
theorem eq_mod {V N : Int} (h0 : 0 ≤ V) (h1 : V < 2 ^ 252 + cz) (hd : (2 ^ 252 + cz) ∣ V - N) : V = N % (2 ^ 252 + cz) := by
  have := Int.emod_emod_of_dvd V (dvd_refl (2 ^ 252 + cz))
  rw [← Int.emod_eq_of_lt h0 h1]
  exact Int.emod_emod_of_dvd V (dvd_refl _) ▸ (Int.emod_emod_of_dvd V (dvd_refl _)).symm ▸
    (Int.emod_eq_emod_iff_emod_sub_eq_zero.mpr (Int.emod_eq_zero_of_dvd hd))

/-- The common end of both functions: from the head's post-condition to the stored bytes. -/
theorem finish (o : Nat) (e1 e2 : Env) (N : Nat) (h1 : ∀ q ∈ headIv o, In q.2 (e1.getD q.1 0))
    (hd : (2 ^ 252 + cz) ∣ wsum e1 (WS o 13) - N) (h2 : ∀ q ∈ tailIv o, In q.2 (e2.getD q.1 0))
    (ht : wsum e2 (WS o 12) = -cz * e1.getD (o + 12) 0 + wsum e1 (WS o 12)) :
    store (fun i => BitVec.ofInt 64 (e2.getD (o + i) 0)) = toLE 32 (N % L) := by
  have b := wsum_bounds e1 o 12 fun i hi => h1 (o + i, (0, 2 ^ 21 - 1))
    (List.mem_cons_of_mem _ (List.mem_map.mpr ⟨i, List.mem_range.mpr hi, rfl⟩))
  have c : -1 ≤ e1.getD (o + 12) 0 ∧ e1.getD (o + 12) 0 ≤ 0 := h1 (o + 12, (-1, 0)) (List.mem_cons_self)
  rw [wsum_succ] at hd
  have hV : wsum e2 (WS o 12) = (N : Int) % (2 ^ 252 + cz) := by
    refine eq_mod ?_ ?_ ?_
    · rw [ht]; unfold cz; omega
    · rw [ht]; unfold cz; norm_num at b; omega
    · rw [ht, show -cz * e1.getD (o + 12) 0 + wsum e1 (WS o 12) - N =
        (wsum e1 (WS o 12) + 2 ^ (21 * 12) * e1.getD (o + 12) 0 - N) - (2 ^ 252 + cz) * e1.getD (o + 12) 0 by ring]
      exact dvd_sub hd (dvd_mul_right _ _)
  have hV0 : 0 ≤ wsum e2 (WS o 12) := by rw [hV]; exact Int.emod_nonneg _ (by norm_num [cz])
  have hV1 : wsum e2 (WS o 12) < 2 ^ 252 + cz := by rw [hV]; exact Int.emod_lt_of_pos _ (by norm_num [cz])
  have dig : ∀ i, i < 11 → 0 ≤ e2.getD (o + i) 0 ∧ e2.getD (o + i) 0 ≤ 2 ^ 21 - 1 := fun i hi =>
    h2 (o + i, (0, 2 ^ 21 - 1)) (List.mem_map.mpr ⟨i, List.mem_range.mpr hi, rfl⟩)
  have b2 := wsum_bounds e2 o 11 dig
  have top : 0 ≤ e2.getD (o + 11) 0 ∧ e2.getD (o + 11) 0 < 2 ^ 22 := by
    rw [wsum_succ] at hV0 hV1
    unfold cz at hV1
    norm_num at hV0 hV1 b2 ⊢
    omega
  have bv : ∀ i, i < 12 → (((BitVec.ofInt 64 (e2.getD (o + i) 0)).toNat : Nat) : Int) = e2.getD (o + i) 0 := by
    intro i hi
    have : 0 ≤ e2.getD (o + i) 0 ∧ e2.getD (o + i) 0 < 2 ^ 22 := by
      rcases Nat.lt_or_ge i 11 with h | h
      · have := dig i h; omega
      · obtain rfl : i = 11 := by omega
        exact top
    rw [BitVec.toNat_ofInt]
    omega
  rw [store_spec _ (fun i hi => by have h1 := bv i (by omega); have h2 := dig i hi; omega)
    (by have h1 := bv 11 (by omega); omega)]
  congr 1
  zify
  rw [L_int, ← hV]
  simp only [bv 0 (by norm_num), bv 1 (by norm_num), bv 2 (by norm_num), bv 3 (by norm_num), bv 4 (by norm_num),
    bv 5 (by norm_num), bv 6 (by norm_num), bv 7 (by norm_num), bv 8 (by norm_num), bv 9 (by norm_num),
    bv 10 (by norm_num), bv 11 (by norm_num)]
  simp only [wsum_succ, show wsum e2 (WS o 0) = 0 from rfl]
  ring

/-- Tail congruence with every slot an input. -/
theorem all_slots {p : List Stmt} {size : Nat} {M : Int} {out c : List (Nat × Int)}
    (h : polyCheck p size size M out [] [] c = true) {env : Env} (he : env.length = size) :
    M ∣ wsum (exRun p env) out - wsum env c := by
  have := polyCheck_sound h (inp := env) he (le_refl _)
  rw [Nat.sub_self, List.replicate_zero, List.append_nil] at this
  simpa [wsum] using this

theorem reduce_spec (m : Mode) (s : Bytes) :
    reduce m s = some (toLE 32 (leNat s % 2 ^ 512 % L) ++ s.drop 32) := by
  have hsat := sat_append (sat_digs (leNat s) 23 29) (sat_zero (ScReduce.size - 24))
  obtain ⟨-, a2⟩ := ivCheck_sound m red_head_iv hsat
  obtain ⟨b1, b2⟩ := ivCheck_sound m red_iv hsat
  have c := polyCheck_sound red_head_poly (inp := digs (leNat s) 23 29) (digs_length _ _ _) (by decide)
  have hlen : (digs (leNat s) 23 29 ++ List.replicate (ScReduce.size - 24) 0).length = ScReduce.size := by
    rw [List.length_append, digs_length, List.length_replicate]; rfl
  have hin : wsum (digs (leNat s) 23 29 ++ List.replicate (ScReduce.size - 24) 0) (WS 0 24) =
      ((leNat s % 2 ^ 512 : Nat) : Int) := wsum_digs _ 0 23 29 _ fun i hi => by
    rw [Nat.zero_add, List.getD_append _ _ _ _ (by rw [digs_length]; omega)]
  unfold reduce
  rw [load24_eq, b1]
  generalize digs (leNat s) 23 29 ++ List.replicate (ScReduce.size - 24) 0 = env at *
  simp only [Option.bind_eq_bind, Option.bind_some]
  rw [red_prog, exRun_append] at b2 ⊢
  have hl2 : (exRun redHead env).length = ScReduce.size := by rw [exRun_length, hlen]
  have d := Int.eq_of_sub_eq_zero (Int.zero_dvd.mp (all_slots red_tail_poly hl2))
  rw [hin] at c
  rw [show wsum env [] = 0 from rfl, zero_mul, zero_add] at c
  have f := finish 0 _ _ _ a2 c b2 d
  rw [show ScReduce.s0 = 0 from rfl, f]

theorem muladd_spec (m : Mode) (a b c : Bytes) : muladd m a b c =
    some (toLE 32 ((leNat a % 2 ^ 256 * (leNat b % 2 ^ 256) + leNat c % 2 ^ 256) % L)) := by
  have hsat := sat_append (sat_append (sat_append (sat_digs (leNat a) 11 25) (sat_digs (leNat b) 11 25))
    (sat_digs (leNat c) 11 25)) (sat_zero (ScMuladd.size - 36))
  obtain ⟨-, a2⟩ := ivCheck_sound m mul_head_iv hsat
  obtain ⟨b1, b2⟩ := ivCheck_sound m mul_iv hsat
  have h36 : (digs (leNat a) 11 25 ++ digs (leNat b) 11 25 ++ digs (leNat c) 11 25).length = 36 := by
    simp only [List.length_append, digs_length]
  have e1 := polyCheck_sound mul_mul_poly (inp := digs (leNat a) 11 25 ++ digs (leNat b) 11 25 ++ digs (leNat c) 11 25)
    h36 (by decide)
  have hlen : (digs (leNat a) 11 25 ++ digs (leNat b) 11 25 ++ digs (leNat c) 11 25 ++
      List.replicate (ScMuladd.size - 36) 0).length = ScMuladd.size := by
    rw [List.length_append, h36, List.length_replicate]; rfl
  have ha : wsum (digs (leNat a) 11 25 ++ digs (leNat b) 11 25 ++ digs (leNat c) 11 25 ++
      List.replicate (ScMuladd.size - 36) 0) (WS 0 12) = ((leNat a % 2 ^ 256 : Nat) : Int) :=
    wsum_digs _ 0 11 25 _ fun i hi => by
      rw [Nat.zero_add, List.getD_append _ _ _ _ (by omega),
        List.getD_append _ _ _ _ (by rw [List.length_append, digs_length, digs_length]; omega),
        List.getD_append _ _ _ _ (by rw [digs_length]; omega)]
  have hb : wsum (digs (leNat a) 11 25 ++ digs (leNat b) 11 25 ++ digs (leNat c) 11 25 ++
      List.replicate (ScMuladd.size - 36) 0) (WS 12 12) = ((leNat b % 2 ^ 256 : Nat) : Int) :=
    wsum_digs _ 12 11 25 _ fun i hi => by
      rw [List.getD_append _ _ _ _ (by omega),
        List.getD_append _ _ _ _ (by rw [List.length_append, digs_length, digs_length]; omega),
        List.getD_append_right _ _ _ _ (by rw [digs_length]; omega), digs_length]
      congr 1; omega
  have hc : wsum (digs (leNat a) 11 25 ++ digs (leNat b) 11 25 ++ digs (leNat c) 11 25 ++
      List.replicate (ScMuladd.size - 36) 0) (WS 24 12) = ((leNat c % 2 ^ 256 : Nat) : Int) :=
    wsum_digs _ 24 11 25 _ fun i hi => by
      rw [List.getD_append _ _ _ _ (by omega),
        List.getD_append_right _ _ _ _ (by rw [List.length_append, digs_length, digs_length]; omega), List.length_append,
        digs_length, digs_length]
      congr 1; omega
  rw [ha, hb, hc] at e1
  unfold muladd
  rw [load12_eq, load12_eq, load12_eq, b1]
  generalize digs (leNat a) 11 25 ++ digs (leNat b) 11 25 ++ digs (leNat c) 11 25 ++
      List.replicate (ScMuladd.size - 36) 0 = env at *
  simp only [Option.bind_eq_bind, Option.bind_some]
  rw [mul_prog, exRun_append] at b2 ⊢
  have hl1 : (exRun ScMuladd.part1 env).length = ScMuladd.size := by rw [exRun_length, hlen]
  have hl2 : (exRun mulHead env).length = ScMuladd.size := by rw [exRun_length, hlen]
  have d := Int.eq_of_sub_eq_zero (Int.zero_dvd.mp (all_slots mul_tail_poly hl2))
  have e2 := all_slots mul_mid_poly hl1
  have e1 := Int.eq_of_sub_eq_zero (Int.zero_dvd.mp e1)
  rw [e1, ← exRun_append] at e2
  have f := finish 36 _ _ (leNat a % 2 ^ 256 * (leNat b % 2 ^ 256) + leNat c % 2 ^ 256) a2
    (by rw [Nat.cast_add, Nat.cast_mul]; exact e2) b2 d
  rw [show ScMuladd.s0 = 36 from rfl, f]

end CryptoPure.Model.Sc
