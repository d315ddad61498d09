import Verif.Proofs.Basic
import Verif.Spec.Sha2
import Mathlib.Data.List.Basic
import Mathlib.Tactic.IntervalCases

/-! Collisions of an iterated hash come from collisions of its compression function. -/

namespace CryptoPure.Proofs.MerkleDamgard
open CryptoPure.Spec.Sha2

variable {S : Type} (f : S → Bytes → S)

/-- The arguments on which `f` is evaluated when `bs` is absorbed starting from `s`. -/
def calls : S → List Bytes → List (S × Bytes)
  | _, [] => []
  | s, b :: bs => (s, b) :: calls (f s b) bs

theorem calls_append (s : S) (bs cs : List Bytes) : calls f s (bs ++ cs) = calls f s bs ++ calls f (bs.foldl f s) cs := by
  induction bs generalizing s with
  | nil => rfl
  | cons b bs ih => simp only [List.cons_append, calls, ih, List.foldl_cons]

theorem collision (s s' : S) (bs bs' : List Bytes) (hl : bs.length = bs'.length) (hne : (s, bs) ≠ (s', bs'))
    (h : bs.foldl f s = bs'.foldl f s') :
    ∃ p ∈ calls f s bs, ∃ p' ∈ calls f s' bs', p ≠ p' ∧ f p.1 p.2 = f p'.1 p'.2 := by
  induction bs generalizing s s' bs' with
  | nil =>
    cases bs' with
    | nil => exact absurd (by rw [show s = s' from h]) hne
    | cons => simp at hl
  | cons b bs ih =>
    cases bs' with
    | nil => simp at hl
    | cons b' bs' =>
      by_cases hp : (s, b) = (s', b')
      · obtain ⟨rfl, rfl⟩ := Prod.mk.inj hp
        obtain ⟨p, h1, p', h2, h3⟩ := ih (f s b) (f s b) bs' (by simpa using hl)
          (fun e => hne (by rw [(Prod.mk.inj e).2])) h
        exact ⟨p, by simp [calls, h1], p', by simp [calls, h2], h3⟩
      · by_cases hc : f s b = f s' b'
        · exact ⟨(s, b), by simp [calls], (s', b'), by simp [calls], hp, hc⟩
        · obtain ⟨p, h1, p', h2, h3⟩ := ih (f s b) (f s' b') bs' (by simpa using hl)
            (fun e => hc (Prod.mk.inj e).1) h
          exact ⟨p, by simp [calls, h1], p', by simp [calls, h2], h3⟩

/-- With an output transformation `g`, and the last blocks differing when the numbers of blocks do. -/
theorem collision_out {T : Type} (g : S → T) (s : S) (bs bs' : List Bytes) (b b' : Bytes) (hne : bs ++ [b] ≠ bs' ++ [b'])
    (hlast : bs.length ≠ bs'.length → b ≠ b')
    (h : g ((bs ++ [b]).foldl f s) = g ((bs' ++ [b']).foldl f s)) :
    ∃ p ∈ calls f s (bs ++ [b]), ∃ p' ∈ calls f s (bs' ++ [b']), p ≠ p' ∧ g (f p.1 p.2) = g (f p'.1 p'.2) := by
  simp only [List.foldl_append, List.foldl_cons, List.foldl_nil] at h
  simp only [calls_append]
  by_cases hp : (bs.foldl f s, b) = (bs'.foldl f s, b')
  · obtain ⟨h1, rfl⟩ := Prod.mk.inj hp
    have hl : bs.length = bs'.length := by
      by_contra hl
      exact hlast hl rfl
    obtain ⟨p, h1, p', h2, h3, h4⟩ := collision f s s bs bs' hl (fun e => hne (by rw [(Prod.mk.inj e).2])) h1
    exact ⟨p, by simp [h1], p', by simp [h2], h3, by rw [h4]⟩
  · exact ⟨_, by simp [calls], _, by simp [calls], hp, h⟩

/-! ### SHA-2 -/

section
variable {w : Nat} (A : Alg w)

theorem pad_arith (n B l : Nat) (hb : l + 1 ≤ B) : (n + (1 + (2 * B - l - 1 - n % B) % B + l)) % B = 0 := by
  have h1 := Nat.mod_lt n (show 0 < B by omega)
  have h2 := Nat.div_add_mod n B
  have h3 := Nat.div_add_mod (2 * B - l - 1 - n % B) B
  generalize n % B = r at *
  generalize n / B = q at *
  have h4 : (2 * B - l - 1 - r) / B < 2 := (Nat.div_lt_iff_lt_mul (by omega)).mpr (by omega)
  generalize (2 * B - l - 1 - r) / B = k at *
  generalize (2 * B - l - 1 - r) % B = z at *
  have : n + (1 + z + l) = B * (q + (2 - k)) := by
    rw [Nat.mul_add]
    interval_cases k <;> omega
  rw [this, Nat.mul_mod_right]

theorem padded_length (hb : A.lenBytes + 1 ≤ A.blockBytes) (msg : Bytes) (bits : Nat) :
    (msg ++ padding A msg.length bits).length % A.blockBytes = 0 ∧ A.lenBytes < (msg ++ padding A msg.length bits).length := by
  unfold padding
  simp only [List.length_append, toBE_length, zeros_length, List.length_singleton]
  exact ⟨pad_arith _ _ _ hb, by omega⟩

/-- The blocks of the padded message: all complete, the last one ending with the length. -/
theorem blocks_snoc (hb : A.lenBytes + 1 ≤ A.blockBytes) (msg : Bytes) :
    ∃ bs b, chunks A.blockBytes (msg ++ padding A msg.length (8 * msg.length)) = bs ++ [b] ∧
      b.drop (A.blockBytes - A.lenBytes) = toBE A.lenBytes (8 * msg.length) ∧
      A.blockBytes * (bs.length + 1) = (msg ++ padding A msg.length (8 * msg.length)).length := by
  obtain ⟨h1, h2⟩ := padded_length A hb msg (8 * msg.length)
  have hm := chunks_mem_length (n := A.blockBytes) (by omega) h1
  have hf := chunks_flatten (n := A.blockBytes) (by omega) (msg ++ padding A msg.length (8 * msg.length))
  rcases List.eq_nil_or_concat (chunks A.blockBytes (msg ++ padding A msg.length (8 * msg.length))) with h | ⟨bs, b, h⟩
  · rw [h] at hf
    rw [← hf] at h2
    simp at h2
  · rw [List.concat_eq_append] at h
    have hbl : b.length = A.blockBytes := hm b (by rw [h]; simp)
    rw [h, List.flatten_append, List.flatten_singleton] at hf
    have hlen : bs.flatten.length = A.blockBytes * bs.length := by
      rw [List.length_flatten, List.map_congr_left (g := fun _ => A.blockBytes) (fun c hc => hm c (by rw [h]; simp [hc]))]
      simp [Nat.mul_comm]
    refine ⟨bs, b, h, ?_, ?_⟩
    · unfold padding at hf
      rw [← List.append_assoc, ← List.take_append_drop (A.blockBytes - A.lenBytes) b, ← List.append_assoc] at hf
      exact (List.append_inj' hf (by rw [toBE_length, List.length_drop, hbl]; omega)).2
    · rw [← hf, List.length_append, hlen, hbl]; ring

/-- Different messages with equal digests show two different arguments of the compression function whose values agree
after truncation. -/
theorem sha_collision (hb : A.lenBytes + 1 ≤ A.blockBytes) (hlb : 8 ≤ A.lenBytes) (iv : Oct w) (size : Nat) (M M' : Bytes)
    (hM : M.length < 2 ^ 61) (hM' : M'.length < 2 ^ 61) (hne : M ≠ M')
    (h : digest A iv size M = digest A iv size M') :
    ∃ p ∈ calls (compress A) iv (chunks A.blockBytes (M ++ padding A M.length (8 * M.length))),
    ∃ p' ∈ calls (compress A) iv (chunks A.blockBytes (M' ++ padding A M'.length (8 * M'.length))), p ≠ p' ∧
      ((compress A p.1 p.2).toList.flatMap fun x => toBE (w / 8) x.toNat).take size =
      ((compress A p'.1 p'.2).toList.flatMap fun x => toBE (w / 8) x.toNat).take size := by
  obtain ⟨bs, b, e1, e2, e3⟩ := blocks_snoc A hb M
  obtain ⟨bs', b', e1', e2', e3'⟩ := blocks_snoc A hb M'
  have hlen : M.length ≠ M'.length → b ≠ b' := by
    rintro hl rfl
    have h256 : 256 ^ 8 ≤ 256 ^ A.lenBytes := Nat.pow_le_pow_right (by omega) hlb
    have := toBE_inj (by omega) (by omega) (e2.symm.trans e2')
    omega
  have hne2 : bs ++ [b] ≠ bs' ++ [b'] := by
    intro e
    obtain ⟨-, eb⟩ := List.append_inj' e rfl
    by_cases hl : M.length = M'.length
    · rw [← e1, ← e1'] at e
      have e := congrArg List.flatten e
      rw [chunks_flatten (by omega), chunks_flatten (by omega)] at e
      exact hne (List.append_inj e hl).1
    · exact hlen hl (by simpa using eb)
  have hcount : bs.length ≠ bs'.length → b ≠ b' := by
    intro hc
    apply hlen
    intro hl
    apply hc
    have : A.blockBytes * (bs.length + 1) = A.blockBytes * (bs'.length + 1) := by
      rw [e3, e3', List.length_append, List.length_append, hl]
    have := Nat.eq_of_mul_eq_mul_left (by omega) this
    omega
  have := collision_out (compress A) (fun H : Oct w => (H.toList.flatMap fun x => toBE (w / 8) x.toNat).take size) iv
    bs bs' b b' hne2 hcount (by
      unfold digest digestWith hashBlocks at h
      rw [e1, e1'] at h
      exact h)
  rw [e1, e1']
  exact this
end

theorem flatMap_inj {α : Type} (g : α → Bytes) (n : Nat) (hg : ∀ a, (g a).length = n) (hi : Function.Injective g)
    (l l' : List α) (hl : l.length = l'.length) (h : l.flatMap g = l'.flatMap g) : l = l' := by
  induction l generalizing l' with
  | nil => exact (List.length_eq_zero_iff.mp hl.symm).symm
  | cons a l ih =>
    cases l' with
    | nil => simp at hl
    | cons a' l' =>
      rw [List.flatMap_cons, List.flatMap_cons] at h
      obtain ⟨h1, h2⟩ := List.append_inj h (by rw [hg, hg])
      rw [hi h1, ih l' (by simpa using hl) h2]

theorem words_inj (k : Nat) (H H' : Oct (8 * k))
    (h : H.toList.flatMap (fun x => toBE k x.toNat) = H'.toList.flatMap (fun x => toBE k x.toNat)) : H = H' := by
  have hi : Function.Injective (fun x : BitVec (8 * k) => toBE k x.toNat) := fun a b e => by
    have ha := a.isLt
    have hb := b.isLt
    rw [Nat.pow_mul] at ha hb
    exact BitVec.eq_of_toNat_eq (toBE_inj ha hb e)
  have := flatMap_inj (fun x : BitVec (8 * k) => toBE k x.toNat) k (fun a => toBE_length k _) hi H.toList H'.toList rfl h
  cases H; cases H'
  simpa [Oct.toList] using this

end CryptoPure.Proofs.MerkleDamgard
