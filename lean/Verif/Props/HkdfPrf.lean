import Mathlib.Data.Fintype.Vector
import Verif.Props.Hmac
import Verif.Spec.Game
import Verif.Proofs.Prob
import Mathlib.Data.Set.Card
import Mathlib.Data.Set.Prod
import Mathlib.Data.Finite.Sigma
import Mathlib.Tactic.Linarith
import Mathlib.Tactic.Ring

/-! # C100: keys that `hkdf::expand` derives for different contexts are independent

`expand` calls HMAC under `prk` on `T(i-1) | info | i`. These inputs are different for different contexts `info` and for
different positions `i`. So with a uniformly random function in place of HMAC under `prk`, any outputs for any list of different
contexts are equally likely. -/

namespace CryptoPure.Props
open CryptoPure.Model Game

/-- RFC 5869 §2.3 with `F` in place of `HMAC(PRK, ·)`: `k` blocks after the block `prev`, which is `T(i)`. -/
def blocksFrom (F : Bytes → Bytes) (info prev : Bytes) (i : Nat) : Nat → Bytes
  | 0 => []
  | k + 1 => F (prev ++ info ++ [BitVec.ofNat 8 (i + 1)]) ++
      blocksFrom F info (F (prev ++ info ++ [BitVec.ofNat 8 (i + 1)])) (i + 1) k

/-- RFC 5869 §2.3 with `F` in place of `HMAC(PRK, ·)`: the first `L` bytes of the 255 blocks. -/
def expandWith (F : Bytes → Bytes) (info : Bytes) (L : Nat) : Bytes := (blocksFrom F info [] 0 255).take L

/-- `T(i)` with `F` in place of `HMAC(PRK, ·)`. -/
def blockWith (F : Bytes → Bytes) (info : Bytes) : Nat → Bytes
  | 0 => []
  | i + 1 => F (blockWith F info i ++ info ++ [BitVec.ofNat 8 (i + 1)])

/-- The input of the call that computes `T(i + 1)`. -/
def inputWith (F : Bytes → Bytes) (info : Bytes) (i : Nat) : Bytes := blockWith F info i ++ info ++ [BitVec.ofNat 8 (i + 1)]

theorem blocksFrom_eq (F : Bytes → Bytes) (info : Bytes) (k i : Nat) :
    blocksFrom F info (blockWith F info i) i k = (List.range k).flatMap fun j => blockWith F info (i + j + 1) := by
  induction k generalizing i with
  | zero => rfl
  | succ k ih =>
    unfold blocksFrom
    rw [show F (blockWith F info i ++ info ++ [BitVec.ofNat 8 (i + 1)]) = blockWith F info (i + 1) from rfl, ih,
      List.range_succ_eq_map, List.flatMap_cons, List.flatMap_map]
    congr 1
    refine List.flatMap_congr fun j _ => ?_
    congr 1; omega

theorem expandWith_eq (F : Bytes → Bytes) (info : Bytes) (L : Nat) :
    expandWith F info L = ((List.range 255).flatMap fun i => blockWith F info (i + 1)).take L := by
  unfold expandWith
  generalize 255 = k
  have h := blocksFrom_eq F info k 0
  rw [show blockWith F info 0 = [] from rfl] at h
  rw [h]
  congr 1
  refine List.flatMap_congr fun j _ => ?_
  rw [Nat.zero_add]

theorem blockWith_hmac (F hash : Bytes → Bytes) (B n : Nat) (prk info : Bytes) (hlen : ∀ x, (hash x).length = n)
    (hF : ∀ x, x.length ≤ n + info.length + 1 → F x = Spec.hmac hash B prk x) (i : Nat) :
    blockWith F info i = Spec.hkdfT hash B prk info i := by
  have hT : ∀ i, (Spec.hkdfT hash B prk info i).length ≤ n := by
    intro i
    cases i with
    | zero => simp [Spec.hkdfT]
    | succ i => simp [Spec.hkdfT, Spec.hmac, hlen]
  induction i with
  | zero => rfl
  | succ i ih =>
    unfold blockWith Spec.hkdfT
    rw [ih, hF]
    have := hT i
    simp; omega

/-- `expand` uses `prk` only through HMAC: if `F` answers as the crate's HMAC under `prk` does, then `expand` returns
RFC 5869 with `F` in place of `HMAC(PRK, ·)`. -/
theorem C100_expand_only_hmac (v : Variant) (m : Mode) (prk info okm out : Bytes) (F : Bytes → Bytes) (hk : prk.length < 2 ^ 61)
    (hl : info.length < 2 ^ 60)
    (hF : ∀ x, x.length ≤ v.size + info.length + 1 → Hmac.wrapper v.code m prk x = some (F x))
    (h : Hkdf.expand v.code m prk info okm = some out) : out = expandWith F info okm.length := by
  have hs : v.size ≤ 64 := by cases v <;> decide
  have hb : v.block ≤ 128 := by cases v <;> decide
  have hsl : ∀ x, (v.fips x).length = v.size := fun x => by rw [v.lawful.hashLen, v.digestSize_eq]
  obtain ⟨rfl, -⟩ := C11_expand_rfc5869 v m prk info okm out hk hl h
  rw [expandWith_eq]
  unfold Spec.hkdfExpand
  congr 1
  refine List.flatMap_congr fun i _ => ?_
  refine (blockWith_hmac F v.fips v.block v.size prk info hsl (fun x hx => ?_) _).symm
  have := hF x hx
  rw [C06_hmac_rfc2104 v m prk x hk (by omega)] at this
  exact (Option.some.inj this).symm

/-- Domain separation: no matter what the digests are, two of the HMAC calls that `expand` makes under one `prk` have the same input
only if they are for the same context and the same position. -/
theorem C100_inputs_distinct (F : Bytes → Bytes) (n : Nat) (hF : ∀ x, (F x).length = n) (info info' : Bytes) (i j : Nat)
    (hi : i < 255) (hj : j < 255) (h : inputWith F info i = inputWith F info' j) : info = info' ∧ i = j := by
  unfold inputWith at h
  obtain ⟨h1, h2⟩ := List.append_inj' h rfl
  have hij : i = j := by
    have := congrArg BitVec.toNat (List.cons.inj h2).1
    simp only [BitVec.toNat_ofNat] at this
    omega
  subst hij
  refine ⟨?_, rfl⟩
  have hl : (blockWith F info i).length = (blockWith F info' i).length := by
    cases i with
    | zero => rfl
    | succ i => unfold blockWith; rw [hF, hF]
  exact (List.append_inj h1 hl).2

/-! ## Counting -/

section Count
variable {D R : Type} [DecidableEq D]

theorem count_points [Finite D] [Finite R] [Nonempty R] (pts : List (D × Set R × Nat)) (hn : (pts.map Prod.fst).Nodup)
    (hw : ∀ p ∈ pts, p.2.1.ncard * p.2.2 = Nat.card R) :
    {F : D → R | ∀ p ∈ pts, F p.1 ∈ p.2.1}.ncard * (pts.map fun p => p.2.2).prod = Nat.card (D → R) := by
  classical
  induction pts with
  | nil => simp [Set.ncard_univ]
  | cons p ps ih =>
    rw [List.map_cons, List.nodup_cons] at hn
    have ih := ih hn.2 (fun q hq => hw q (List.mem_cons_of_mem _ hq))
    have hs : {F : D → R | ∀ q ∈ p :: ps, F q.1 ∈ q.2.1} = {F ∈ {F : D → R | ∀ q ∈ ps, F q.1 ∈ q.2.1} | F p.1 ∈ p.2.1} := by
      ext F
      simp only [List.mem_cons, forall_eq_or_imp, Set.mem_ofPred_eq]
      exact and_comm
    have hc := count_point {F : D → R | ∀ q ∈ ps, F q.1 ∈ q.2.1} p.1 p.2.1 (by
      intro F hF y q hq
      have hne : q.1 ≠ p.1 := fun e => hn.1 (e ▸ List.mem_map_of_mem hq)
      rw [Function.update_of_ne hne]
      exact hF q hq)
    rw [← hs] at hc
    have hp := hw p (List.mem_cons_self ..)
    have hR : 0 < Nat.card R := Nat.card_pos
    rw [List.map_cons, List.prod_cons]
    refine Nat.eq_of_mul_eq_mul_right hR ?_
    rw [← ih]
    calc _ = ({F : D → R | ∀ q ∈ p :: ps, F q.1 ∈ q.2.1}.ncard * Nat.card R) * (p.2.2 * (ps.map fun p => p.2.2).prod) := by ring
      _ = ({F : D → R | ∀ q ∈ ps, F q.1 ∈ q.2.1}.ncard * (ps.map fun p => p.2.2).prod) * (p.2.1.ncard * p.2.2) := by rw [hc]; ring
      _ = _ := by rw [hp]

end Count

/-! ## Random functions -/

/-- Functions from byte strings of at most `N` bytes to digests of `n` bytes. -/
abbrev Keyed (N n : Nat) := {x : Bytes // x.length ≤ N} → {d : Bytes // d.length = n}

/-- The answer to an input; longer inputs are answered by zeros. -/
def Keyed.ask {N n : Nat} (F : Keyed N n) (x : Bytes) : Bytes := if h : x.length ≤ N then (F ⟨x, h⟩).1 else zeros n

theorem ask_length {N n : Nat} (F : Keyed N n) (x : Bytes) : (F.ask x).length = n := by
  unfold Keyed.ask
  split
  · exact (F _).2
  · simp

instance u8Finite : Finite U8 := Finite.of_injective BitVec.toFin (fun _ _ h => BitVec.toFin_inj.mp h)

theorem card_digest (n : Nat) : Nat.card {d : Bytes // d.length = n} = 256 ^ n := by
  have : Fintype U8 := Fintype.ofFinite _
  have h : Fintype.card (List.Vector U8 n) = Fintype.card U8 ^ n := card_vector n
  have h8 : Fintype.card U8 = 256 := by
    rw [← Nat.card_eq_fintype_card, Nat.card_eq_of_bijective (BitVec.toFin (w := 8)) ⟨fun _ _ h => BitVec.toFin_inj.mp h, fun x => ⟨⟨x⟩, rfl⟩⟩]
    simp
  rw [h8, ← Nat.card_eq_fintype_card] at h
  exact h

instance (n : Nat) : Finite {d : Bytes // d.length = n} := by
  have : Fintype U8 := Fintype.ofFinite _
  exact inferInstanceAs (Finite (List.Vector U8 n))

instance (n : Nat) : Nonempty {d : Bytes // d.length = n} := ⟨⟨zeros n, by simp⟩⟩

instance (N : Nat) : Finite {x : Bytes // x.length ≤ N} := by
  have : Finite (Σ k : Fin (N + 1), {d : Bytes // d.length = k}) := inferInstance
  refine Finite.of_surjective (fun p : Σ k : Fin (N + 1), {d : Bytes // d.length = k} => (⟨p.2.1, ?_⟩ : {x : Bytes // x.length ≤ N})) ?_
  · have := p.2.2; omega
  · rintro ⟨x, hx⟩
    exact ⟨⟨⟨x.length, by omega⟩, x, rfl⟩, rfl⟩

/-- The digests that begin with the first bytes of `out`, `k` of them. -/
theorem card_prefix (n k : Nat) (hk : k ≤ n) (t : Bytes) (ht : t.length = k) :
    {d : {d : Bytes // d.length = n} | d.1.take k = t}.ncard * 256 ^ k = 256 ^ n := by
  have h : {d : {d : Bytes // d.length = n} | d.1.take k = t}.ncard = 256 ^ (n - k) := by
    rw [← card_digest, ← Set.ncard_univ]
    refine (Set.ncard_congr (fun d _ => (⟨t ++ d.1, by rw [List.length_append, d.2]; omega⟩ : {d : Bytes // d.length = n})) ?_ ?_ ?_).symm
    · intro d _
      simp [List.take_left' ht]
    · intro d d' _ _ h
      have := congrArg Subtype.val h
      exact Subtype.ext (List.append_cancel_left this)
    · rintro ⟨d, hd⟩ h
      refine ⟨⟨d.drop k, by simp [hd]⟩, Set.mem_univ _, Subtype.ext ?_⟩
      have h : d.take k = t := h
      simp [← h]
  rw [h, ← pow_add]
  congr 1; omega

/-- What `F` must satisfy for `k` blocks after `prev = T(i)` to begin with `out`: input, and first bytes of the digest. -/
def points (n : Nat) (info : Bytes) : Bytes → Nat → Nat → Bytes → List (Bytes × Bytes)
  | _, _, 0, _ => []
  | prev, i, k + 1, out =>
    if out.length = 0 then [] else
      (prev ++ info ++ [BitVec.ofNat 8 (i + 1)], out.take n) :: points n info (out.take n) (i + 1) k (out.drop n)

theorem points_iff (F : Bytes → Bytes) (n : Nat) (hF : ∀ x, (F x).length = n) (info : Bytes) (k : Nat) (prev : Bytes) (i : Nat)
    (out : Bytes) (ho : out.length ≤ k * n) :
    (blocksFrom F info prev i k).take out.length = out ↔ ∀ p ∈ points n info prev i k out, (F p.1).take p.2.length = p.2 := by
  induction k generalizing prev i out with
  | zero =>
    have : out = [] := List.eq_nil_of_length_eq_zero (by omega)
    subst this
    simp [points]
  | succ k ih =>
    unfold points blocksFrom
    by_cases h0 : out.length = 0
    · rw [if_pos h0, h0]
      have : out = [] := List.eq_nil_of_length_eq_zero h0
      subst this
      simp
    rw [if_neg h0]
    generalize hq : prev ++ info ++ [BitVec.ofNat 8 (i + 1)] = q
    simp only [List.mem_cons, forall_eq_or_imp]
    rw [Nat.succ_mul] at ho
    have hd : (out.drop n).length ≤ k * n := by rw [List.length_drop]; omega
    have ih := fun prev => ih prev (i + 1) (out.drop n) hd
    by_cases hn : out.length ≤ n
    · -- the last block
      have e : out.take n = out := List.take_of_length_le hn
      have e' : out.drop n = [] := List.drop_eq_nil_of_le hn
      rw [e, e']
      rw [List.take_append_of_le_length (by rw [hF]; exact hn)]
      have hp : points n info out (i + 1) k [] = [] := by cases k <;> simp [points]
      rw [hp]
      simp
    · have hn : n ≤ out.length := by omega
      have el : (out.take n).length = n := by rw [List.length_take]; omega
      rw [← ih (out.take n)]
      have hL : out.length = n + (out.drop n).length := by rw [List.length_drop]; omega
      rw [el, List.take_of_length_le (l := F q) (by rw [hF])]
      constructor
      · intro h
        have h1 : F q = out.take n := by
          have := congrArg (List.take n) h
          rw [List.take_take, Nat.min_eq_left hn, List.take_left' (hF q)] at this
          exact this
        refine ⟨h1, ?_⟩
        have := congrArg (List.drop n) h
        rw [List.drop_take, List.drop_left' (hF q), h1] at this
        rw [List.length_drop]
        exact this
      · rintro ⟨h1, h2⟩
        rw [h1, hL, List.take_append, el, Nat.add_sub_cancel_left, h2, List.take_of_length_le (by rw [el]; omega), List.take_append_drop]

theorem points_fst (n : Nat) (info : Bytes) (k : Nat) (prev : Bytes) (i : Nat) (out : Bytes) (p : Bytes × Bytes)
    (hp : p ∈ points n info prev i k out) (hprev : i = 0 ∧ prev = [] ∨ 0 < i ∧ prev.length = n) :
    ∃ j t, i ≤ j ∧ j < i + k ∧ p.1 = t ++ info ++ [BitVec.ofNat 8 (j + 1)] ∧ (j = 0 ∧ t = [] ∨ 0 < j ∧ t.length = n) := by
  induction k generalizing prev i out with
  | zero => simp [points] at hp
  | succ k ih =>
    unfold points at hp
    split at hp
    · simp at hp
    · rcases List.mem_cons.mp hp with h | h
      · subst h
        exact ⟨i, prev, le_refl _, by omega, rfl, hprev⟩
      · by_cases hn : out.length ≤ n
        · rw [List.drop_eq_nil_of_le hn] at h
          cases k <;> simp [points] at h
        · obtain ⟨j, t, h1, h2, h3, h4⟩ := ih _ _ _ h (Or.inr ⟨by omega, by rw [List.length_take]; omega⟩)
          exact ⟨j, t, by omega, by omega, h3, h4⟩

theorem points_nodup (n : Nat) (info : Bytes) (k : Nat) (prev : Bytes) (i : Nat) (out : Bytes) (hk : i + k ≤ 255)
    (hprev : i = 0 ∧ prev = [] ∨ 0 < i ∧ prev.length = n) : ((points n info prev i k out).map Prod.fst).Nodup := by
  induction k generalizing prev i out with
  | zero => simp [points]
  | succ k ih =>
    unfold points
    split
    · simp
    · rw [List.map_cons, List.nodup_cons]
      by_cases hn : out.length ≤ n
      · rw [List.drop_eq_nil_of_le hn]
        have : points n info (out.take n) (i + 1) k [] = [] := by cases k <;> simp [points]
        rw [this]; simp
      · have hp : i + 1 = 0 ∧ out.take n = [] ∨ 0 < i + 1 ∧ (out.take n).length = n := Or.inr ⟨by omega, by rw [List.length_take]; omega⟩
        refine ⟨fun hm => ?_, ih _ _ _ (by omega) hp⟩
        obtain ⟨p, hp', e⟩ := List.mem_map.mp hm
        obtain ⟨j, t, h1, h2, h3, -⟩ := points_fst n info k _ _ _ p hp' hp
        rw [h3] at e
        have := congrArg BitVec.toNat (List.cons.inj (List.append_inj' e rfl).2).1
        simp only [BitVec.toNat_ofNat] at this
        omega

theorem points_snd (n : Nat) (info : Bytes) (k : Nat) (prev : Bytes) (i : Nat) (out : Bytes) :
    ∀ p ∈ points n info prev i k out, p.2.length ≤ n := by
  induction k generalizing prev i out with
  | zero => simp [points]
  | succ k ih =>
    intro p hp
    unfold points at hp
    split at hp
    · simp at hp
    · rcases List.mem_cons.mp hp with h | h
      · subst h; exact List.length_take_le ..
      · exact ih _ _ _ p h

theorem points_sum (n : Nat) (info : Bytes) (k : Nat) (prev : Bytes) (i : Nat) (out : Bytes) (ho : out.length ≤ k * n) :
    ((points n info prev i k out).map fun p => p.2.length).sum = out.length := by
  induction k generalizing prev i out with
  | zero => simp [points]; omega
  | succ k ih =>
    unfold points
    split
    · simp; omega
    · rw [Nat.succ_mul] at ho
      rw [List.map_cons, List.sum_cons, ih _ _ _ (by rw [List.length_drop]; omega), List.length_take, List.length_drop]
      omega

/-- With a uniformly random function in place of HMAC under `prk`: for any different contexts and any lengths `expand` accepts, all
outputs are equally likely. Any given outputs `okm` for them occur for exactly one function in `256 ^ (total length)`. -/
theorem C100_outputs_uniform (N n : Nat) (requests : List (Bytes × Bytes)) (hd : (requests.map Prod.fst).Nodup)
    (hl : ∀ r ∈ requests, r.2.length ≤ 255 * n ∧ n + r.1.length + 1 ≤ N) :
    {F : Keyed N n | ∀ r ∈ requests, expandWith F.ask r.1 r.2.length = r.2}.ncard *
      256 ^ (requests.map fun r => r.2.length).sum = Nat.card (Keyed N n) := by
  classical
  let pts := requests.flatMap fun r => points n r.1 [] 0 255 r.2
  have hbase : ∀ n, ((0 : Nat) = 0 ∧ ([] : Bytes) = [] ∨ 0 < 0 ∧ ([] : Bytes).length = n) := fun n => Or.inl ⟨rfl, rfl⟩
  have hpl : ∀ p ∈ pts, p.1.length ≤ N := by
    intro p hp
    obtain ⟨r, hr, hp⟩ := List.mem_flatMap.mp hp
    obtain ⟨j, t, -, -, h3, h4⟩ := points_fst n r.1 255 [] 0 r.2 p hp (hbase n)
    rw [h3]
    have := (hl r hr).2
    have ht : t.length ≤ n := by rcases h4 with h | h <;> simp [h]
    simp only [List.length_append, List.length_cons, List.length_nil]; omega
  have hps : ∀ p ∈ pts, p.2.length ≤ n := by
    intro p hp
    obtain ⟨r, hr, hp⟩ := List.mem_flatMap.mp hp
    exact points_snd _ _ _ _ _ _ p hp
  have hnd : (pts.map Prod.fst).Nodup := by
    have : pts.map Prod.fst = requests.flatMap fun r => (points n r.1 [] 0 255 r.2).map Prod.fst := by
      simp only [pts, List.map_flatMap]
    rw [this, List.nodup_flatMap]
    refine ⟨fun r _ => points_nodup n r.1 255 [] 0 r.2 (by omega) (hbase n), ?_⟩
    rw [List.nodup_iff_pairwise_ne, List.pairwise_map] at hd
    refine hd.imp fun {r r'} hne x hx hx' => ?_
    obtain ⟨p, hp, rfl⟩ := List.mem_map.mp hx
    obtain ⟨p', hp', e⟩ := List.mem_map.mp hx'
    obtain ⟨j, t, h1, h2, h3, h4⟩ := points_fst n r.1 255 [] 0 r.2 p hp (hbase n)
    obtain ⟨j', t', h1', h2', h3', h4'⟩ := points_fst n r'.1 255 [] 0 r'.2 p' hp' (hbase n)
    rw [h3, h3'] at e
    obtain ⟨e1, e2⟩ := List.append_inj' e rfl
    have hj : j' = j := by
      have := congrArg BitVec.toNat (List.cons.inj e2).1
      simp only [BitVec.toNat_ofNat] at this
      omega
    subst hj
    have ht : t'.length = t.length := by
      rcases h4 with h | h <;> rcases h4' with h' | h' <;> simp [h, h'] <;> omega
    exact hne (List.append_inj e1 ht).2.symm
  let P : List ({x : Bytes // x.length ≤ N} × Set {d : Bytes // d.length = n} × Nat) :=
    pts.attach.map fun p => (⟨p.1.1, hpl p.1 p.2⟩, {d | d.1.take p.1.2.length = p.1.2}, 256 ^ p.1.2.length)
  have hcount := count_points P (by
      have : (P.map Prod.fst).map Subtype.val = pts.map Prod.fst := by
        simp only [P, List.map_map, Function.comp_def]
        exact List.attach_map_val (l := pts) (f := fun p => p.1)
      rw [← this] at hnd
      exact List.Nodup.of_map _ hnd) (by
      intro p hp
      obtain ⟨q, -, rfl⟩ := List.mem_map.mp hp
      rw [card_digest]
      exact card_prefix n q.1.2.length (hps q.1 q.2) q.1.2 rfl)
  have hprod : (P.map fun p => p.2.2).prod = 256 ^ (requests.map fun r => r.2.length).sum := by
    have h1 : (P.map fun p => p.2.2) = pts.map fun p => 256 ^ p.2.length := by
      simp only [P, List.map_map, Function.comp_def]
      exact List.attach_map_val (l := pts) (f := fun p => 256 ^ p.2.length)
    have h2 : ∀ l : List (Bytes × Bytes), (l.map fun p => 256 ^ p.2.length).prod = 256 ^ (l.map fun p => p.2.length).sum := by
      intro l
      induction l with
      | nil => rfl
      | cons a l ih => simp [ih, pow_add]
    rw [h1, h2]
    congr 1
    have h3 : ∀ l : List (Bytes × Bytes), (∀ r ∈ l, r.2.length ≤ 255 * n) →
        ((l.flatMap fun r => points n r.1 [] 0 255 r.2).map fun p => p.2.length).sum = (l.map fun r => r.2.length).sum := by
      intro l hl
      induction l with
      | nil => rfl
      | cons a l ih =>
        rw [List.flatMap_cons, List.map_append, List.sum_append, ih (fun r hr => hl r (List.mem_cons_of_mem _ hr)),
          points_sum _ _ _ _ _ _ (hl a (List.mem_cons_self ..)), List.map_cons, List.sum_cons]
    exact h3 requests (fun r hr => (hl r hr).1)
  rw [hprod] at hcount
  rw [← hcount]
  congr 2
  ext F
  simp only [Set.mem_ofPred_eq]
  have hev : (∀ r ∈ requests, expandWith F.ask r.1 r.2.length = r.2) ↔ ∀ p ∈ pts, (F.ask p.1).take p.2.length = p.2 := by
    constructor
    · intro h p hp
      obtain ⟨r, hr, hp⟩ := List.mem_flatMap.mp hp
      exact (points_iff F.ask n (ask_length F) r.1 255 [] 0 r.2 (hl r hr).1).mp (h r hr) p hp
    · intro h r hr
      exact (points_iff F.ask n (ask_length F) r.1 255 [] 0 r.2 (hl r hr).1).mpr
        (fun p hp => h p (List.mem_flatMap.mpr ⟨r, hr, hp⟩))
  rw [hev]
  constructor
  · intro h p hp
    obtain ⟨q, -, rfl⟩ := List.mem_map.mp hp
    have := h q.1 q.2
    unfold Keyed.ask at this
    rw [dif_pos (hpl q.1 q.2)] at this
    exact this
  · intro h p hp
    have := h _ (List.mem_map.mpr ⟨⟨p, hp⟩, List.mem_attach _ _, rfl⟩)
    unfold Keyed.ask
    rw [dif_pos (hpl p hp)]
    exact this

/-- What was derived for other contexts says nothing about a further one: among the functions that gave the outputs `seen`, exactly one
in `256 ^ (length of okm)` gives `okm` for a context not asked before. -/
theorem C100_next_context (N n : Nat) (seen : List (Bytes × Bytes)) (info okm : Bytes) (hd : (seen.map Prod.fst).Nodup)
    (hi : info ∉ seen.map Prod.fst) (hl : ∀ r ∈ seen, r.2.length ≤ 255 * n ∧ n + r.1.length + 1 ≤ N)
    (ho : okm.length ≤ 255 * n) (hin : n + info.length + 1 ≤ N) :
    {F : Keyed N n | (∀ r ∈ seen, expandWith F.ask r.1 r.2.length = r.2) ∧ expandWith F.ask info okm.length = okm}.ncard *
      256 ^ okm.length = {F : Keyed N n | ∀ r ∈ seen, expandWith F.ask r.1 r.2.length = r.2}.ncard := by
  have h1 := C100_outputs_uniform N n seen hd hl
  have h2 := C100_outputs_uniform N n ((info, okm) :: seen) (by rw [List.map_cons, List.nodup_cons]; exact ⟨hi, hd⟩)
    (by intro r hr
        rcases List.mem_cons.mp hr with h | h
        · subst h; exact ⟨ho, hin⟩
        · exact hl r h)
  rw [← h2] at h1
  rw [List.map_cons, List.sum_cons, pow_add, ← mul_assoc] at h1
  have h3 := Nat.eq_of_mul_eq_mul_right (by positivity) h1
  rw [h3]
  congr 2
  ext F
  simp only [Set.mem_ofPred_eq, List.mem_cons, forall_eq_or_imp]
  exact and_comm

/-! ## Concrete cases -/

/-- The theorem on the crate's own HMAC: contexts `[]` and `[1]` under one key. -/
example (okm okm' out out' : Bytes) (prk : Bytes) (hk : prk.length = 32) (F : Bytes → Bytes)
    (hF : ∀ x, x.length ≤ 34 → Hmac.wrapper Variant.sha256.code .debug prk x = some (F x))
    (h : Hkdf.expand Variant.sha256.code .debug prk [] okm = some out)
    (h' : Hkdf.expand Variant.sha256.code .debug prk [1] okm' = some out') :
    out = expandWith F [] okm.length ∧ out' = expandWith F [1] okm'.length :=
  ⟨C100_expand_only_hmac .sha256 .debug prk [] okm out F (by omega) (by simp) (fun x hx => hF x (by simp [Variant.size] at hx; omega)) h,
   C100_expand_only_hmac .sha256 .debug prk [1] okm' out' F (by omega) (by simp) (fun x hx => hF x (by simpa [Variant.size] using hx)) h'⟩

/-- Such an `F` exists: it is RFC 2104's HMAC under `prk`. -/
example (prk : Bytes) (hk : prk.length = 32) (x : Bytes) (hx : x.length ≤ 34) :
    Hmac.wrapper Variant.sha256.code .debug prk x = some (Spec.hmac Variant.sha256.fips Variant.sha256.block prk x) :=
  C06_hmac_rfc2104 .sha256 .debug prk x (by omega) (by have : Variant.sha256.block = 64 := rfl; omega)

/-- Two contexts, 42 and 16 bytes, digests of 32 bytes. -/
example (a b : Bytes) (ha : a.length = 42) (hb : b.length = 16) :
    {F : Keyed 100 32 | ∀ r ∈ [([1, 2], a), ([3], b)], expandWith F.ask r.1 r.2.length = r.2}.ncard * 256 ^ 58 =
      Nat.card (Keyed 100 32) := by
  have := C100_outputs_uniform 100 32 [([1, 2], a), ([3], b)] (by simp) (by simp [ha, hb])
  simpa [ha, hb] using this

/-! ## Further concrete cases -/

/-- The inputs of the blocks of two contexts never coincide, for a function that looks at nothing but the length. -/
example (info info' : Bytes) (i j : Nat) (hi : i < 255) (hj : j < 255)
    (h : inputWith (fun x => [BitVec.ofNat 8 x.length]) info i = inputWith (fun x => [BitVec.ofNat 8 x.length]) info' j) : info = info' ∧ i = j :=
  C100_inputs_distinct _ 1 (fun _ => rfl) info info' i j hi hj h

/-- Given the key of one context, all keys of 16 bytes for another one are equally likely. -/
example (a okm : Bytes) (ha : a.length = 42) (ho : okm.length = 16) :
    {F : Keyed 100 32 | (∀ r ∈ [(([1, 2] : Bytes), a)], expandWith F.ask r.1 r.2.length = r.2) ∧ expandWith F.ask [3] okm.length = okm}.ncard *
      256 ^ okm.length = {F : Keyed 100 32 | ∀ r ∈ [(([1, 2] : Bytes), a)], expandWith F.ask r.1 r.2.length = r.2}.ncard :=
  C100_next_context 100 32 [([1, 2], a)] [3] okm (by simp) (by simp) (by simp [ha]) (by omega) (by simp)

end CryptoPure.Props
