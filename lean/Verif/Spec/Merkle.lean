import Verif.Basic

/-! # Hash trees (RFC 6962, section 2.1)

A hash tree over a list of data items, made with the caller's hash function `h`; `none` is a panic of `h`. The crate has no hash trees: this is how a program uses a hash function of
the crate for one. -/

namespace CryptoPure.Spec.Merkle

/-- The largest power of two below `n`, for `n ≥ 2`. -/
def split (n : Nat) : Nat := 2 ^ Nat.log2 (n - 1)

theorem split_pos (n : Nat) : 0 < split n := Nat.two_pow_pos _

theorem split_lt {n : Nat} (h : 2 ≤ n) : split n < n := by
  have := Nat.log2_self_le (n := n - 1) (by omega)
  unfold split
  omega

/-- The hash of a tree: of the empty text if there is no item, of the byte 0 and the item for one item, and otherwise of the byte 1 and the hashes of two smaller trees. -/
def root (h : Bytes → Option Bytes) (ds : List Bytes) : Option Bytes :=
  if 2 ≤ ds.length then do
    let l ← root h (ds.take (split ds.length))
    let r ← root h (ds.drop (split ds.length))
    h (1 :: (l ++ r))
  else match ds with
    | [] => h []
    | d :: _ => h (0 :: d)
termination_by ds.length
decreasing_by
  · have := split_lt (n := ds.length) (by assumption)
    simp only [List.length_take]; omega
  · have := split_pos ds.length
    simp only [List.length_drop]; omega

/-- The proof that item `i` is in the tree: the hashes of the smaller trees next to the way from the root to the item, from the root on. -/
def path (h : Bytes → Option Bytes) (i : Nat) (ds : List Bytes) : Option (List Bytes) :=
  if 2 ≤ ds.length then
    if i < split ds.length then do
      let r ← root h (ds.drop (split ds.length))
      let ps ← path h i (ds.take (split ds.length))
      some (r :: ps)
    else do
      let l ← root h (ds.take (split ds.length))
      let ps ← path h (i - split ds.length) (ds.drop (split ds.length))
      some (l :: ps)
  else some []
termination_by ds.length
decreasing_by
  · have := split_lt (n := ds.length) (by assumption)
    simp only [List.length_take]; omega
  · have := split_pos ds.length
    simp only [List.length_drop]; omega

/-- What the holder of a proof computes for item `d`, said to be number `i` of `n`: the hash of the whole tree; `some none` if the proof does not have the right form. -/
def climb (h : Bytes → Option Bytes) (n i : Nat) (d : Bytes) : List Bytes → Option (Option Bytes)
  | [] => if n = 1 ∧ i = 0 then (h (0 :: d)).map some else some none
  | p :: ps =>
    if n < 2 then some none
    else if i < split n then do
      match ← climb h (split n) i d ps with
      | none => some none
      | some l => (h (1 :: (l ++ p))).map some
    else do
      match ← climb h (n - split n) (i - split n) d ps with
      | none => some none
      | some r => (h (1 :: (p ++ r))).map some

/-- Check a proof against the hash `r` of the tree; all parts of the proof have to be as long as `r`. -/
def check (h : Bytes → Option Bytes) (n i : Nat) (d : Bytes) (ps : List Bytes) (r : Bytes) : Option Bool :=
  if ps.all (fun p => p.length == r.length) then (climb h n i d ps).map (· == some r) else some false

/-- The texts that are hashed to compute `root`. -/
def texts (h : Bytes → Option Bytes) (ds : List Bytes) : List Bytes :=
  if 2 ≤ ds.length then
    texts h (ds.take (split ds.length)) ++ texts h (ds.drop (split ds.length)) ++
      [1 :: ((root h (ds.take (split ds.length))).getD [] ++ (root h (ds.drop (split ds.length))).getD [])]
  else match ds with
    | [] => [[]]
    | d :: _ => [0 :: d]
termination_by ds.length
decreasing_by
  · have := split_lt (n := ds.length) (by assumption)
    simp only [List.length_take]; omega
  · have := split_pos ds.length
    simp only [List.length_drop]; omega

/-- The texts that are hashed to compute `climb`. -/
def climbTexts (h : Bytes → Option Bytes) (n i : Nat) (d : Bytes) : List Bytes → List Bytes
  | [] => if n = 1 ∧ i = 0 then [0 :: d] else []
  | p :: ps =>
    if n < 2 then []
    else if i < split n then
      match climb h (split n) i d ps with
      | some (some l) => climbTexts h (split n) i d ps ++ [1 :: (l ++ p)]
      | _ => climbTexts h (split n) i d ps
    else
      match climb h (n - split n) (i - split n) d ps with
      | some (some r) => climbTexts h (n - split n) (i - split n) d ps ++ [1 :: (p ++ r)]
      | _ => climbTexts h (n - split n) (i - split n) d ps

/-- Two different texts, one in each list, with the same hash. -/
def Collide (h : Bytes → Option Bytes) (xs ys : List Bytes) : Prop :=
  ∃ x ∈ xs, ∃ y ∈ ys, x ≠ y ∧ (h x).isSome ∧ h x = h y

end CryptoPure.Spec.Merkle
