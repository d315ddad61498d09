import Verif.Spec.Merkle

/-! # Logs that only grow (RFC 6962, section 2.1.2)

A log is a list of items that gets longer. Its holder publishes the hash of its tree now and then, and proves that a later list begins with an earlier one. Proofs are listed from the root of
the tree on, which is the reverse of the order in the RFC. -/

namespace CryptoPure.Spec.Merkle

/-- The proof that the first `m` items of the list, `m` not 0, were the list at an earlier time. `known` if the receiver of the proof knows the hash of the tree of these items. -/
def growth (h : Bytes → Option Bytes) (m : Nat) (known : Bool) (ds : List Bytes) : Option (List Bytes) :=
  if 2 ≤ ds.length ∧ m < ds.length then
    if m ≤ split ds.length then do
      let r ← root h (ds.drop (split ds.length))
      let ps ← growth h m known (ds.take (split ds.length))
      some (r :: ps)
    else do
      let l ← root h (ds.take (split ds.length))
      let ps ← growth h (m - split ds.length) false (ds.drop (split ds.length))
      some (l :: ps)
  else if known then some []
  else do
    let r ← root h ds
    some [r]
termination_by ds.length
decreasing_by
  · have := split_lt (n := ds.length) (by omega)
    simp only [List.length_take]; omega
  · have := split_pos ds.length
    simp only [List.length_drop]; omega

/-- What the receiver of a proof computes: the hashes of the trees of the first `m` items and of all `n` items. `old` is the hash that was published for `m` items; `some none` if the proof
does not have the right form. -/
def grow (h : Bytes → Option Bytes) (m n : Nat) (known : Bool) (old : Bytes) : List Bytes → Option (Option (Bytes × Bytes))
  | [] => some (if m = n ∧ known then some (old, old) else none)
  | p :: ps =>
    if m = n then some (if known = false ∧ ps = [] then some (p, p) else none)
    else if m ≤ split n then do
      match ← grow h m (split n) known old ps with
      | none => some none
      | some (o, w) => do
        let w' ← h (1 :: (w ++ p))
        some (some (o, w'))
    else do
      match ← grow h (m - split n) (n - split n) false old ps with
      | none => some none
      | some (o, w) => do
        let o' ← h (1 :: (p ++ o))
        let w' ← h (1 :: (p ++ w))
        some (some (o', w'))

/-- Check the proof that the list of `n` items with the hash `new` begins with the list of `m` items with the hash `old`. -/
def checkGrowth (h : Bytes → Option Bytes) (m n : Nat) (old new : Bytes) (ps : List Bytes) : Option Bool :=
  if 0 < m ∧ m ≤ n ∧ ps.all (fun p => p.length == old.length) then (grow h m n true old ps).map (· == some (old, new)) else some false

/-- The texts that are hashed to compute `grow`. -/
def growTexts (h : Bytes → Option Bytes) (m n : Nat) (known : Bool) (old : Bytes) : List Bytes → List Bytes
  | [] => []
  | p :: ps =>
    if m = n then []
    else if m ≤ split n then
      match grow h m (split n) known old ps with
      | some (some (_, w)) => growTexts h m (split n) known old ps ++ [1 :: (w ++ p)]
      | _ => growTexts h m (split n) known old ps
    else
      match grow h (m - split n) (n - split n) false old ps with
      | some (some (o, w)) => growTexts h (m - split n) (n - split n) false old ps ++ [1 :: (p ++ o), 1 :: (p ++ w)]
      | _ => growTexts h (m - split n) (n - split n) false old ps

end CryptoPure.Spec.Merkle
