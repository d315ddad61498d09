import Verif.Proofs.LeakBasic
import Verif.Leak.Gcm
import Verif.Model.Gcm

/-! The recorded AES, GHASH and GCM compute what the model computes; two runs on inputs of equal lengths are observed
alike. -/

namespace CryptoPure.Leak
open CryptoPure.Model (Aes.KeyExp)

/-- Equal lengths. -/
abbrev SameLen {α β : Type} (a : List α) (b : List β) : Prop := a.length = b.length

theorem forall₂_true_of_len {α β : Type} : ∀ (a : List α) (b : List β), a.length = b.length →
    List.Forall₂ (fun _ _ => True) a b
  | [], [], _ => .nil
  | _ :: a, _ :: b, h => .cons trivial (forall₂_true_of_len a b (by simpa using h))

theorem forall₂_eq {α : Type} : ∀ (a : List α), List.Forall₂ (· = ·) a a
  | [] => .nil
  | _ :: a => .cons rfl (forall₂_eq a)

theorem forall₂_chunksAux {α β : Type} (n : Nat) : ∀ (k : Nat) (a : List α) (b : List β), a.length = b.length →
    List.Forall₂ SameLen (chunksAux n k a) (chunksAux n k b)
  | 0, _, _, _ => by simp [chunksAux]
  | k + 1, [], [], _ => by simp [chunksAux]
  | k + 1, x :: a, y :: b, h => by
    simp only [chunksAux]
    exact .cons (by simp only [SameLen, List.length_take, h]) (forall₂_chunksAux n k _ _ (by simp only [List.length_drop, h]))

/-- Pieces of equally long lists have equal lengths. -/
theorem forall₂_chunks {α β : Type} (n : Nat) (a : List α) (b : List β) (h : a.length = b.length) :
    List.Forall₂ SameLen (chunks n a) (chunks n b) := by
  unfold chunks
  rw [h]
  exact forall₂_chunksAux n _ a b h

theorem forall₂_flatten {α β : Type} : ∀ (a : List (List α)) (b : List (List β)), List.Forall₂ SameLen a b →
    a.flatten.length = b.flatten.length
  | _, _, .nil => rfl
  | _, _, .cons h hs => by
    simp only [List.flatten_cons, List.length_append]
    have := forall₂_flatten _ _ hs
    omega

theorem forall₂_len {α β : Type} {R : α → β → Prop} {a : List α} {b : List β} (h : List.Forall₂ R a b) :
    a.length = b.length := h.length_eq

theorem Alike.each_len {α β γ δ : Type} {f : α → L γ} {g : β → L δ} (hf : ∀ x y, Alike (fun _ _ => True) (f x) (g y))
    {xs : List α} {ys : List β} (h : xs.length = ys.length) : Alike SameLen (Leak.each f xs) (Leak.each g ys) :=
  (Alike.each (Q := fun _ _ => True) (fun x y _ => hf x y) xs ys (forall₂_true_of_len _ _ h)).mono fun _ _ h => h.length_eq

namespace Util

theorem verifyInner_val (x y : Bytes) : (verifyInner x y).val = Model.Util.verifyInner x y := by
  unfold verifyInner Model.Util.verifyInner
  rw [val_bind, val_check]
  congr 1
  funext _
  rw [val_loop_total _ (fun acc p => acc ||| (p.1 ^^^ p.2)) (fun _ _ => rfl)]

theorem verify16_val (x y : Bytes) : (verify16 x y).val = Model.Util.verify16 x y := by
  unfold verify16 Model.Util.verify16
  rw [val_bind, val_branch, Option.bind_some, val_ite]
  cases (x.length == y.length)
  · rfl
  · simp only [if_true, val_bind, verifyInner_val]
    rfl

theorem verifyInner_alike (x y x' y' : Bytes) (hx : x.length = x'.length) (hy : y.length = y'.length) :
    Alike (fun _ _ => True) (verifyInner x y) (verifyInner x' y') := by
  refine .bind (.check (by rw [hx, hy])) fun _ _ _ => ?_
  exact Alike.loop (Q := fun _ _ => True) (fun _ _ _ _ _ _ => .pure trivial) _ _ _ _
    (forall₂_true_of_len _ _ (by simp [hx, hy])) trivial

theorem verify16_alike (x y x' y' : Bytes) (hx : x.length = x'.length) (hy : y.length = y'.length) :
    Alike (fun _ _ => True) (verify16 x y) (verify16 x' y') :=
  .cond (by rw [hx, hy]) (fun _ => .bind (verifyInner_alike x y x' y' hx hy) fun _ _ _ => .pure trivial)
    (fun _ => .pure trivial)

end Util

namespace Aes
open Model.Aes (g256Inv xtime mixColumn shiftRows)

theorem g256Newbasis_val (x : U8) (b : List U8) : (g256Newbasis x b).val = some (Model.Aes.g256Newbasis x b) := by
  unfold g256Newbasis Model.Aes.g256Newbasis
  rw [val_bind, val_loop_total _ _ (fun _ _ => rfl)]
  rfl

theorem sBox_val (n : U8) : (sBox n).val = some (Model.Aes.sBox n) := by
  unfold sBox Model.Aes.sBox
  rw [val_bind, g256Newbasis_val, Option.bind_some, val_bind, g256Newbasis_val]
  rfl

theorem subBytes_val (s : Bytes) : (subBytes s).val = some (Model.Aes.subBytes s) := val_each_total _ _ sBox_val s

theorem mixColumns_val (s : Bytes) : (mixColumns s).val = some (Model.Aes.mixColumns s) := by
  unfold mixColumns Model.Aes.mixColumns
  rw [val_bind, val_each_total _ _ (fun _ => rfl), Option.bind_some, List.flatMap_def]
  rfl

theorem keyExpStep_val (nk : Nat) (s : Aes.KeyExp) (i : Nat) (hi : 0 < i) :
    (keyExpStep nk s i).val = some (Model.Aes.keyExpStep nk s i) := by
  have h4 : 4 * i - 4 * (i - 1) = 4 := by omega
  have hl : ∀ (temp sch : Bytes), (loop (fun sch j => (do
      let a ← get sch (4 * (i - nk) + j) 0
      let t ← get temp j 0
      put sch (4 * i + j) (a ^^^ t) : L Bytes)) [0, 1, 2, 3] sch).val =
      some ([0, 1, 2, 3].foldl (fun sch j => sch.set (4 * i + j) (sch.getD (4 * (i - nk) + j) 0 ^^^ temp.getD j 0)) sch) :=
    fun temp sch => val_loop_total _ _ (fun _ _ => rfl) _ _
  unfold keyExpStep Model.Aes.keyExpStep
  rw [val_bind, val_slice, h4, Option.bind_some, val_bind, val_bind, val_branch, Option.bind_some, val_ite]
  by_cases h1 : i % nk = 0
  · simp only [h1, decide_true, if_true, val_bind, subBytes_val, Option.bind_some, val_pure, hl]
    rfl
  · simp only [h1, decide_false, if_false, val_bind, val_branch, Option.bind_some, val_ite, Bool.false_eq_true]
    by_cases h2 : nk > 6 ∧ i % nk = 4
    · simp only [h2, decide_true, if_true, subBytes_val, Option.bind_some, val_pure, hl, and_self]
      rfl
    · simp only [h2, decide_false, if_false, Option.bind_some, val_pure, hl, Bool.false_eq_true]

theorem keyExpansion_val (nk : Nat) (hnk : 0 < nk) (key : Bytes) :
    (keyExpansion nk key).val = Model.Aes.keyExpansion nk key := by
  unfold keyExpansion Model.Aes.keyExpansion
  rw [val_bind, val_check]
  congr 1
  funext _
  rw [val_bind, val_copy, Option.bind_some, val_bind, val_loop]
  have : ∀ (l : List Nat) (s : Aes.KeyExp), (∀ i ∈ l, 0 < i) →
      l.foldlM (fun s i => (keyExpStep nk s i).val) s = some (l.foldl (Model.Aes.keyExpStep nk) s) := by
    intro l
    induction l with
    | nil => intro s _; rfl
    | cons i l ih =>
      intro s h
      rw [List.foldlM_cons, keyExpStep_val nk s i (h i (by simp)), List.foldl_cons]
      exact ih _ fun j hj => h j (by simp [hj])
  rw [this _ _ (fun i hi => by rw [List.mem_range'_1] at hi; omega)]
  rfl

theorem addRoundKey_val (schedule state : Bytes) (round : Nat) :
    (addRoundKey schedule state round).val = some (Model.Aes.addRoundKey schedule state round) := by
  unfold addRoundKey Model.Aes.addRoundKey Model.Aes.roundKey
  rw [val_bind, val_slice, Option.bind_some, val_each_total _ (fun p => p.1 ^^^ p.2) (fun _ => rfl),
    show 16 * (round + 1) - 16 * round = 16 by omega, List.zip, List.map_zipWith]

theorem permute_val (nk : Nat) (schedule input : Bytes) :
    (permute nk schedule input).val = some (Model.Aes.permute nk schedule input) := by
  unfold permute Model.Aes.permute
  rw [val_bind, addRoundKey_val, Option.bind_some, val_bind,
    val_loop_total _ (fun st round => Model.Aes.addRoundKey schedule
      (Model.Aes.mixColumns (Model.Aes.shiftRows (Model.Aes.subBytes st))) round), Option.bind_some, val_bind, subBytes_val,
    Option.bind_some, addRoundKey_val]
  intro st round
  rw [val_bind, subBytes_val, Option.bind_some, val_bind, mixColumns_val, Option.bind_some, addRoundKey_val]

theorem g256Newbasis_alike (x y : U8) (b : List U8) : Alike (fun _ _ => True) (g256Newbasis x b) (g256Newbasis y b) :=
  .bind (Alike.loop (R := fun _ _ => True) (fun _ _ _ _ _ _ => .pure trivial) _ _ _ _ (forall₂_eq _) trivial)
    fun _ _ _ => .pure trivial

theorem sBox_alike (x y : U8) : Alike (fun _ _ => True) (sBox x) (sBox y) :=
  .bind (g256Newbasis_alike _ _ _) fun _ _ _ => .bind (g256Newbasis_alike _ _ _) fun _ _ _ => .pure trivial

theorem subBytes_alike (x y : Bytes) (h : x.length = y.length) : Alike SameLen (subBytes x) (subBytes y) :=
  .each_len sBox_alike h

theorem mixColumns_alike (x y : Bytes) (h : x.length = y.length) : Alike SameLen (mixColumns x) (mixColumns y) :=
  .bind (Alike.each (Q := SameLen) (R := SameLen) (fun c d _ => .pure (show (mixColumn c).length = (mixColumn d).length from rfl)) _ _ (forall₂_chunks 4 x y h))
    fun _ _ h => .pure (forall₂_flatten _ _ h)

theorem shiftRows_length (x : Bytes) : (shiftRows x).length = x.length := by
  simp [shiftRows, Model.Aes.swap]

theorem rotateLeft_length {α : Type} (l : List α) (n : Nat) : (l.rotateLeft n).length = l.length := by
  unfold List.rotateLeft
  dsimp only
  split
  · rfl
  · have := Nat.mod_lt n (show 0 < l.length by omega)
    simp only [List.length_append, List.length_drop, List.length_take]
    omega

theorem keyExpStep_alike (nk : Nat) (s t : Aes.KeyExp) (i : Nat) (h : s.schedule.length = t.schedule.length) :
    Alike (fun a b => a.schedule.length = b.schedule.length) (keyExpStep nk s i) (keyExpStep nk t i) := by
  refine .bind (Alike.slice h) fun a b hab => ?_
  refine .bind (R := fun p q => p.1.length = q.1.length) ?_ ?_
  · refine .cond rfl (fun _ => ?_) (fun _ => .cond rfl (fun _ => ?_) (fun _ => .pure hab))
    · exact .bind (subBytes_alike _ _ (by rw [rotateLeft_length, rotateLeft_length, hab])) fun a b hab => .pure (by simpa using hab)
    · exact .bind (subBytes_alike _ _ hab) fun a b hab => .pure hab
  · rintro ⟨a, r⟩ ⟨b, r'⟩ hab
    refine .bind (R := SameLen) ?_ fun a b hab => .pure hab
    refine Alike.loop (Q := (· = ·)) ?_ _ _ _ _ (forall₂_eq _) h
    rintro s t x _ h rfl
    exact .bind (R := fun _ _ => True) (.get trivial) fun _ _ _ => .bind (R := fun _ _ => True) (.get trivial)
      fun _ _ _ => .put h

theorem keyExpansion_alike (nk : Nat) (key key' : Bytes) (h : key.length = key'.length) :
    Alike SameLen (keyExpansion nk key) (keyExpansion nk key') :=
  .bind (.check (by rw [h])) fun _ _ _ => .bind (.copy rfl h) fun _ _ h =>
    .bind (Alike.loop (R := fun a b => a.schedule.length = b.schedule.length) (Q := (· = ·))
      (fun s t x y h e => by subst e; exact keyExpStep_alike nk s t x h) _ _ _ _ (forall₂_eq _) h) fun _ _ h => .pure h

theorem addRoundKey_alike (sc sc' x y : Bytes) (round : Nat) (hs : sc.length = sc'.length) (h : x.length = y.length) :
    Alike SameLen (addRoundKey sc x round) (addRoundKey sc' y round) :=
  .bind (.slice hs) fun _ _ hk => .each_len (fun _ _ => .pure trivial) (by simp [h, hk])

theorem permute_alike (nk : Nat) (sc sc' x y : Bytes) (hs : sc.length = sc'.length) (h : x.length = y.length) :
    Alike SameLen (permute nk sc x) (permute nk sc' y) := by
  refine .bind (addRoundKey_alike _ _ _ _ _ hs h) fun a b hab => ?_
  refine .bind (Alike.loop (Q := (· = ·)) (R := SameLen) ?_ _ _ _ _ (forall₂_eq _) hab) fun a b hab => ?_
  · rintro s t r _ hst rfl
    refine .bind (subBytes_alike _ _ hst) fun a b hab => ?_
    refine .bind (mixColumns_alike _ _ (by rw [shiftRows_length, shiftRows_length, hab])) fun a b hab => ?_
    exact addRoundKey_alike _ _ _ _ _ hs hab
  · refine .bind (subBytes_alike _ _ hab) fun a b hab => ?_
    exact addRoundKey_alike _ _ _ _ _ hs (by rw [shiftRows_length, shiftRows_length, hab])

end Aes
end CryptoPure.Leak
