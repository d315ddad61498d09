import Verif.Proofs.WorkCurve
import Verif.Proofs.WorkHash

/-! How many events the recorded Ed25519 functions have. -/

namespace CryptoPure.Leak.Ed25519
open Fe
open Model.Ed25519 (GeP2 GeP3 GeP1p1 GePrecomp GeCached precompFrom p3ToP2 p3Zero p2Zero precomp0 cmov clampAz)

/-- All coordinates have at most ten limbs. -/
structure Small3 (p : GeP3) : Prop where
  x : Small p.x
  y : Small p.y
  z : Small p.z
  t : Small p.t
/-- All coordinates have at most ten limbs. -/
structure Small2 (p : GeP2) : Prop where
  x : Small p.x
  y : Small p.y
  z : Small p.z
/-- All coordinates have at most ten limbs. -/
structure Small1 (p : GeP1p1) : Prop where
  x : Small p.x
  y : Small p.y
  z : Small p.z
  t : Small p.t

theorem geMadd_takes {p : GeP3} (q : GePrecomp) (h : Small3 p) : Takes 77 Small1 (geMadd p q) := by
  unfold geMadd
  refine .step (add_takes _ h.y) fun _ rx => ?_
  refine .step (sub_takes _ h.y) fun _ ry => ?_
  refine .step (mul_takes _ _) fun _ rz => ?_
  refine .step (mul_takes _ _) fun _ ry => ?_
  refine .step (mul_takes _ _) fun _ rt => ?_
  refine .step (add_takes _ h.z) fun _ t0 => ?_
  refine .step (sub_takes _ rz) fun _ rx => ?_
  refine .step (add_takes _ ry) fun _ ry => ?_
  refine .step (add_takes _ t0) fun _ rz => ?_
  refine .step (sub_takes _ t0) fun _ rt => ?_
  exact (takes_done (P := Small1) ⟨rx, ry, rz, rt⟩)

theorem geMsub_takes {p : GeP3} (q : GePrecomp) (h : Small3 p) : Takes 77 Small1 (geMsub p q) := by
  unfold geMsub
  refine .step (add_takes _ h.y) fun _ rx => ?_
  refine .step (sub_takes _ h.y) fun _ ry => ?_
  refine .step (mul_takes _ _) fun _ rz => ?_
  refine .step (mul_takes _ _) fun _ ry => ?_
  refine .step (mul_takes _ _) fun _ rt => ?_
  refine .step (add_takes _ h.z) fun _ t0 => ?_
  refine .step (sub_takes _ rz) fun _ rx => ?_
  refine .step (add_takes _ ry) fun _ ry => ?_
  refine .step (sub_takes _ t0) fun _ rz => ?_
  refine .step (add_takes _ rt) fun _ rt => ?_
  exact (takes_done (P := Small1) ⟨rx, ry, rz, rt⟩)

theorem geAdd_takes {p : GeP3} (q : GeCached) (h : Small3 p) : Takes 77 Small1 (geAdd p q) := by
  unfold geAdd
  refine .step (add_takes _ h.y) fun _ rx => ?_
  refine .step (sub_takes _ h.y) fun _ ry => ?_
  refine .step (mul_takes _ _) fun _ rz => ?_
  refine .step (mul_takes _ _) fun _ ry => ?_
  refine .step (mul_takes _ _) fun _ rt => ?_
  refine .step (mul_takes _ _) fun _ rx => ?_
  refine .step (add_takes _ rx) fun _ t0 => ?_
  refine .step (sub_takes _ rz) fun _ rx => ?_
  refine .step (add_takes _ ry) fun _ ry => ?_
  refine .step (add_takes _ t0) fun _ rz => ?_
  refine .step (sub_takes _ t0) fun _ rt => ?_
  exact (takes_done (P := Small1) ⟨rx, ry, rz, rt⟩)

theorem geSub_takes {p : GeP3} (q : GeCached) (h : Small3 p) : Takes 77 Small1 (geSub p q) := by
  unfold geSub
  refine .step (add_takes _ h.y) fun _ rx => ?_
  refine .step (sub_takes _ h.y) fun _ ry => ?_
  refine .step (mul_takes _ _) fun _ rz => ?_
  refine .step (mul_takes _ _) fun _ ry => ?_
  refine .step (mul_takes _ _) fun _ rt => ?_
  refine .step (mul_takes _ _) fun _ rx => ?_
  refine .step (add_takes _ rx) fun _ t0 => ?_
  refine .step (sub_takes _ rz) fun _ rx => ?_
  refine .step (add_takes _ ry) fun _ ry => ?_
  refine .step (sub_takes _ t0) fun _ rz => ?_
  refine .step (add_takes _ rt) fun _ rt => ?_
  exact (takes_done (P := Small1) ⟨rx, ry, rz, rt⟩)

theorem p1p1ToP2_takes (p : GeP1p1) : Takes 0 Small2 (p1p1ToP2 p) :=
  .step (mul_takes _ _) fun _ x => .step (mul_takes _ _) fun _ y => .step (mul_takes _ _) fun _ z =>
    takes_pure (P := Small2) ⟨x, y, z⟩

theorem p1p1ToP3_takes (p : GeP1p1) : Takes 0 Small3 (p1p1ToP3 p) :=
  .step (mul_takes _ _) fun _ x => .step (mul_takes _ _) fun _ y => .step (mul_takes _ _) fun _ z =>
    .step (mul_takes _ _) fun _ t => takes_pure (P := Small3) ⟨x, y, z, t⟩

theorem p2Dbl_takes {p : GeP2} (h : Small2 p) : Takes 55 Small1 (p2Dbl p) := by
  unfold p2Dbl
  refine .step (sq_takes _) fun _ rx => ?_
  refine .step (sq_takes _) fun _ rz => ?_
  refine .step (sq2_takes _) fun _ rt => ?_
  refine .step (add_takes _ h.x) fun _ ry => ?_
  refine .step (sq_takes _) fun _ t0 => ?_
  refine .step (add_takes _ rz) fun _ ry => ?_
  refine .step (sub_takes _ rz) fun _ rz => ?_
  refine .step (sub_takes _ t0) fun _ rx => ?_
  refine .step (sub_takes _ rt) fun _ rt => ?_
  exact (takes_done (P := Small1) ⟨rx, ry, rz, rt⟩)

theorem p3Dbl_takes {p : GeP3} (h : Small3 p) : Takes 55 Small1 (p3Dbl p) := p2Dbl_takes ⟨h.x, h.y, h.z⟩

theorem toBytes_takes (x y z : Model.Fe) : Takes 300 (fun b => b.length = 32) (toBytes x y z) := by
  unfold toBytes
  refine .step (invert_takes _) fun _ _ => ?_
  refine .step (mul_takes _ _) fun _ _ => ?_
  refine .step (mul_takes _ _) fun _ _ => ?_
  refine .step (Fe.toBytes_takes _) fun s hs => ?_
  refine .step (isNegative_takes _) fun _ _ => ?_
  exact (takes_done (by rw [List.length_set]; exact hs))

theorem entry_takes (pos j : Nat) : Takes 2 (fun _ => True) (entry pos j) := by
  unfold entry
  refine .step (takes_index _ _) fun _ _ => ?_
  refine .step (takes_get _ _ _) fun _ _ => ?_
  exact (takes_done trivial)

theorem cmov_small {t : GePrecomp} (u : GePrecomp) (b : U8) (h : Small t.xy2d) : Small (cmov t u b).xy2d := by
  have h : t.xy2d.length ≤ 10 := h
  simp only [Small, cmov, Model.Fe.cmov, List.length_zipWith]
  omega

theorem select_takes (pos : Nat) (b : Int) : Takes 27 (fun _ => True) (select pos b) := by
  unfold select
  refine .step (takes_op _) fun _ _ => ?_
  refine .step (entry_takes pos 0) fun _ _ => ?_
  refine .step (entry_takes pos 1) fun _ _ => ?_
  refine .step (entry_takes pos 2) fun _ _ => ?_
  refine .step (entry_takes pos 3) fun _ _ => ?_
  refine .step (entry_takes pos 4) fun _ _ => ?_
  refine .step (entry_takes pos 5) fun _ _ => ?_
  refine .step (entry_takes pos 6) fun _ _ => ?_
  refine .step (entry_takes pos 7) fun _ _ => ?_
  refine .step (neg_takes ?_) fun _ _ => ?_
  · repeat refine cmov_small _ _ ?_
    decide
  · exact (takes_done trivial)

theorem recode_takes (a : Bytes) : Takes 300 (fun _ => True) (recode a) := by
  unfold recode nibbles
  refine .step (n := 97) (P := fun _ => True) ?_ fun ns _ => ?_
  · refine .step (takes_each_le (n := 32) (k := 2) (P := fun _ => True) (fun i => ?_) _ (by simp)) fun _ _ =>
      (takes_done trivial)
    exact .step (takes_get _ _ _) fun _ _ => .step (takes_get _ _ _) fun _ _ => (takes_done trivial)
  · refine .step (n := 190) (P := fun _ => True) ?_ fun r _ => ?_
    · refine (takes_loop (n := 63) (k := 2) (P := fun _ => True) (Q := fun _ => True) (fun s i _ _ => ?_) _ _
        (fun _ _ => trivial) trivial (by simp)).le (by omega)
      unfold recodeStep
      refine .step (takes_get _ _ _) fun _ _ => ?_
      refine .step (takes_op _) fun _ _ => ?_
      refine .step (takes_op _) fun _ _ => ?_
      refine .step (takes_op _) fun _ _ => ?_
      refine .step (takes_put _ _ _) fun _ _ => ?_
      exact (takes_done trivial)
    · refine .step (takes_get _ _ _) fun _ _ => ?_
      refine .step (takes_op _) fun _ _ => ?_
      exact ((takes_put _ _ _).mono fun _ _ => ⟨Nat.le_refl _, trivial⟩).le (by omega)

theorem baseStep_takes (e : List Int) (h : GeP3) (i : Nat) (hs : Small3 h) : Takes 105 Small3 (baseStep e h i) := by
  unfold baseStep
  refine .step (takes_get _ _ _) fun _ _ => ?_
  refine .step (select_takes _ _) fun _ _ => ?_
  refine .step (geMadd_takes _ hs) fun _ _ => ?_
  exact (p1p1ToP3_takes _).le (by omega)

theorem zero3 : Small3 p3Zero := ⟨by decide, by decide, by decide, by decide⟩
theorem zero2 : Small2 p2Zero := ⟨by decide, by decide, by decide⟩

theorem scalarmultBase_takes (a : Bytes) : Takes 7500 Small3 (scalarmultBase a) := by
  unfold scalarmultBase
  refine .step (recode_takes a) fun e _ => ?_
  refine .step (takes_loop (n := 32) (k := 105) (P := Small3) (Q := fun _ => True)
    (fun s i hs _ => baseStep_takes e s i hs) _ _ (fun _ _ => trivial) zero3 (by simp)) fun h hh => ?_
  refine .step (p3Dbl_takes hh) fun r _ => ?_
  refine .step (p1p1ToP2_takes r) fun s hs => ?_
  refine .step (p2Dbl_takes hs) fun r _ => ?_
  refine .step (p1p1ToP2_takes r) fun s hs => ?_
  refine .step (p2Dbl_takes hs) fun r _ => ?_
  refine .step (p1p1ToP2_takes r) fun s hs => ?_
  refine .step (p2Dbl_takes hs) fun r _ => ?_
  refine .step (p1p1ToP3_takes r) fun h hh => ?_
  exact (takes_loop (n := 32) (k := 105) (P := Small3) (Q := fun _ => True)
    (fun s i hs _ => baseStep_takes e s i hs) _ _ (fun _ _ => trivial) hh (by simp)).le (by omega)

theorem sha512_work : Sha2.Work Sha2.Sha512 Sha2.credit (Sha2.Ready Model.Sha2.P512) :=
  Sha2.work_impl Sha2.sizes512 _ _ _ (by decide) (by decide)

theorem genPk_takes (sk : Bytes) : Takes 10000 (fun _ => True) (genPk sk) := by
  unfold genPk
  refine .step (takes_check _) fun _ h => ?_
  rw [beq_iff_eq] at h
  refine .step (Sha2.wrapper_takes sha512_work sk) fun az _ => ?_
  refine .step (scalarmultBase_takes _) fun a _ => ?_
  exact ((toBytes_takes _ _ _).mono fun _ _ => ⟨Nat.le_refl _, trivial⟩).le (by omega)

theorem hashParts_takes (ps : List Bytes) :
    Takes (8 * (ps.map List.length).sum + 17 * ps.length + 1511) (fun d => d.length ≤ 64) (hashParts ps) :=
  Sha2.parts_takes sha512_work ps _

theorem clampAz_length (az : Bytes) : (clampAz az).length = az.length := by simp [clampAz]

theorem sign_takes (msg sk : Bytes) : Takes (16 * msg.length + 25000) (fun _ => True) (sign msg sk) := by
  unfold sign
  refine .step (takes_check _) fun _ h => ?_
  rw [beq_iff_eq] at h
  refine .step (Sha2.wrapper_takes sha512_work sk) fun az haz => ?_
  refine .step (scalarmultBase_takes _) fun a _ => ?_
  refine .step (toBytes_takes _ _ _) fun pk hpk => ?_
  have hl : ((clampAz az).drop 32).length ≤ 32 := by
    rw [List.length_drop, clampAz_length]
    omega
  refine .step (n := 8 * msg.length + 2000) (P := fun _ => True) (((hashParts_takes _).mono fun _ _ => ⟨Nat.le_refl _, trivial⟩).le ?_)
    fun nonce _ => ?_
  · simp only [List.map_cons, List.map_nil, List.sum_cons, List.sum_nil, List.length_cons, List.length_nil]
    omega
  refine .step (takes_op _) fun nonce _ => ?_
  refine .step (takes_copy _ _ _) fun s1 hs1 => ?_
  have hz : (zeros 64).length = 64 := zeros_length _
  have hs1 : s1.length = 64 := by rw [hs1, copyAt_length (by omega), hz]
  refine .step (scalarmultBase_takes _) fun r _ => ?_
  refine .step (toBytes_takes _ _ _) fun rb hrb => ?_
  refine .step (takes_copy _ _ _) fun s2 hs2 => ?_
  have hs2 : s2.length = 64 := by rw [hs2, copyAt_length (by omega), hs1]
  refine .step (n := 8 * msg.length + 2100) (P := fun _ => True) (((hashParts_takes _).mono fun _ _ => ⟨Nat.le_refl _, trivial⟩).le ?_)
    fun hram _ => ?_
  · simp only [List.map_cons, List.map_nil, List.sum_cons, List.sum_nil, List.length_cons, List.length_nil]
    omega
  refine .step (takes_op _) fun hram _ => ?_
  refine .step (takes_op _) fun s _ => ?_
  exact ((takes_copy _ _ _).mono fun _ _ => ⟨Nat.le_refl _, trivial⟩).le (by omega)

/-! ### Verification -/

theorem p3ToCached_takes {p : GeP3} (h : Small3 p) : Takes 22 (fun _ => True) (p3ToCached p) := by
  unfold p3ToCached
  refine .step (add_takes _ h.y) fun _ _ => ?_
  refine .step (sub_takes _ h.y) fun _ _ => ?_
  refine .step (mul_takes _ _) fun _ _ => ?_
  exact (takes_done trivial)

theorem slideCarry_takes : ∀ l : List Int, Takes (2 * l.length + 1) (fun r => r.length = l.length) (slideCarry l)
  | [] => .step (takes_branch _) fun _ _ => (takes_done rfl)
  | x :: xs => by
    unfold slideCarry
    rw [List.length_cons]
    refine .step (takes_branch _) fun _ _ => ?_
    refine .cond (fun _ => (takes_done rfl)) fun _ => ?_
    exact .step (slideCarry_takes xs) fun ys hys => (takes_done (by rw [List.length_cons, hys]))

theorem slideInner_takes (i : Nat) : ∀ (bs : List Nat) (r : List Int), r.length = 256 →
    Takes (bs.length * 521 + 1) (fun r => r.length = 256) (slideInner i bs r)
  | [], r, hr => .step (takes_branch _) fun _ _ => (takes_done hr)
  | b :: bs, r, hr => by
    unfold slideInner
    rw [List.length_cons, Nat.succ_mul]
    refine .step (takes_branch _) fun _ _ => ?_
    refine .cond (fun _ => ?_) fun _ => (takes_done hr)
    refine .step (takes_get _ _ _) fun x _ => ?_
    refine .cond (fun _ => ?_) fun _ => (slideInner_takes i bs r hr).le (by omega)
    refine .step (takes_get _ _ _) fun y _ => ?_
    refine .step (takes_op _) fun s _ => ?_
    refine .cond (fun _ => ?_) fun _ => ?_
    · refine .step (takes_put _ _ _) fun r1 h1 => ?_
      refine .step (takes_put _ _ _) fun r2 h2 => ?_
      exact (slideInner_takes i bs r2 (by rw [h2, List.length_set, h1, List.length_set, hr])).le (by omega)
    · refine .step (takes_op _) fun s _ => ?_
      refine .cond (fun _ => ?_) fun _ => (takes_done hr)
      refine .step (takes_put _ _ _) fun r1 h1 => ?_
      have h1 : r1.length = 256 := by rw [h1, List.length_set, hr]
      refine .step (n := 513) (P := fun b' => b'.length = (r1.drop (i + b)).length)
        ((slideCarry_takes _).le (by rw [List.length_drop]; omega)) fun back hb => ?_
      refine (slideInner_takes i bs _ ?_).le (by omega)
      rw [List.length_append, hb, List.length_take, List.length_drop]
      omega

theorem slide_takes (a : Bytes) : Takes 802000 (fun _ => True) (slide a) := by
  unfold slide slideBits
  refine .step (takes_check _) fun _ _ => ?_
  refine .step (takes_each_le (n := 256) (k := 1) (P := fun _ => True)
    (fun i => .step (takes_get _ _ _) fun _ _ => (takes_done trivial)) _ (by simp)) fun r hr => ?_
  have hr : r.length = 256 := by rw [hr.1, List.length_range]
  refine ((takes_loop (n := 256) (k := 3129) (P := fun r => r.length = 256) (Q := fun _ => True) (fun s i hs _ => ?_) _ _
    (fun _ _ => trivial) hr (by simp)).mono fun _ _ => ⟨Nat.le_refl _, trivial⟩).le (by omega)
  refine .step (takes_get _ _ _) fun _ _ => ?_
  exact .cond (fun _ => (slideInner_takes i _ s hs).le (by simp only [List.length_cons, List.length_nil]; omega)) fun _ =>
    (takes_done hs)

theorem topIndex_takes (a b : List Int) : ∀ n, Takes (5 * n + 1) (fun k => k ≤ n) (topIndex a b n)
  | 0 => .step (takes_branch _) fun _ _ => (takes_done (Nat.le_refl _))
  | n + 1 => by
    unfold topIndex
    refine .step (takes_branch _) fun _ _ => ?_
    refine .step (takes_get _ _ _) fun _ _ => ?_
    refine .cond (fun _ => (takes_done (Nat.le_refl _))) fun _ => ?_
    refine .step (takes_get _ _ _) fun _ _ => ?_
    refine .cond (fun _ => (takes_done (Nat.le_refl _))) fun _ => ?_
    exact ((topIndex_takes a b n).mono fun _ h => ⟨Nat.le_refl _, Nat.le_succ_of_le h⟩).le (by omega)

theorem addA_takes (ai : List GeCached) (x : Int) (t : GeP1p1) (ht : Small1 t) : Takes 80 Small1 (addA ai x t) := by
  unfold addA
  refine .cond (fun _ => ?_) fun _ => .cond (fun _ => ?_) fun _ => (takes_done ht)
  · refine .step (p1p1ToP3_takes t) fun u hu => ?_
    refine .step (takes_index _ _) fun q _ => ?_
    exact (geAdd_takes q hu).le (by omega)
  · refine .step (p1p1ToP3_takes t) fun u hu => ?_
    refine .step (takes_op _) fun _ _ => ?_
    refine .step (takes_index _ _) fun q _ => ?_
    exact (geSub_takes q hu).le (by omega)

theorem addB_takes (x : Int) (t : GeP1p1) (ht : Small1 t) : Takes 80 Small1 (addB x t) := by
  unfold addB
  refine .cond (fun _ => ?_) fun _ => .cond (fun _ => ?_) fun _ => (takes_done ht)
  · refine .step (p1p1ToP3_takes t) fun u hu => ?_
    refine .step (takes_index _ _) fun q _ => ?_
    exact (geMadd_takes _ hu).le (by omega)
  · refine .step (p1p1ToP3_takes t) fun u hu => ?_
    refine .step (takes_op _) fun _ _ => ?_
    refine .step (takes_index _ _) fun q _ => ?_
    exact (geMsub_takes _ hu).le (by omega)

theorem doubleStep_takes (s s' : List Int) (ai : List GeCached) (r : GeP2) (i : Nat) (hr : Small2 r) :
    Takes 220 Small2 (doubleStep s s' ai r i) := by
  unfold doubleStep
  refine .step (p2Dbl_takes hr) fun t ht => ?_
  refine .step (takes_get _ _ _) fun x _ => ?_
  refine .step (addA_takes ai x t ht) fun t ht => ?_
  refine .step (takes_get _ _ _) fun y _ => ?_
  refine .step (addB_takes y t ht) fun t ht => ?_
  exact (p1p1ToP2_takes t).le (by omega)

theorem nextCached_takes {a2 : GeP3} (c : GeCached) (h : Small3 a2) : Takes 99 (fun _ => True) (nextCached a2 c) := by
  unfold nextCached
  refine .step (geAdd_takes c h) fun t _ => ?_
  refine .step (p1p1ToP3_takes t) fun u hu => ?_
  exact (p3ToCached_takes hu).le (by omega)

theorem cachedTable_takes {ga : GeP3} (h : Small3 ga) : Takes 800 (fun _ => True) (cachedTable ga) := by
  unfold cachedTable
  refine .step (p3ToCached_takes h) fun c _ => ?_
  refine .step (p3Dbl_takes h) fun t _ => ?_
  refine .step (p1p1ToP3_takes t) fun a2 ha => ?_
  refine .step (nextCached_takes _ ha) fun c _ => ?_
  refine .step (nextCached_takes _ ha) fun c _ => ?_
  refine .step (nextCached_takes _ ha) fun c _ => ?_
  refine .step (nextCached_takes _ ha) fun c _ => ?_
  refine .step (nextCached_takes _ ha) fun c _ => ?_
  refine .step (nextCached_takes _ ha) fun c _ => ?_
  refine .step (nextCached_takes _ ha) fun c _ => ?_
  exact (takes_done trivial)

theorem doubleScalarmult_takes (a : Bytes) (ga : GeP3) (b : Bytes) (h : Small3 ga) :
    Takes 1665000 (fun _ => True) (doubleScalarmult a ga b) := by
  unfold doubleScalarmult
  refine .step (takes_check _) fun _ _ => ?_
  refine .step (slide_takes a) fun s _ => ?_
  refine .step (slide_takes b) fun s' _ => ?_
  refine .step (cachedTable_takes h) fun ai _ => ?_
  refine .step (topIndex_takes s s' 256) fun n hn => ?_
  exact ((takes_loop (n := 256) (k := 220) (P := Small2) (Q := fun _ => True)
    (fun r i hr _ => doubleStep_takes s s' ai r i hr) _ _ (fun _ _ => trivial) zero2 (by simpa using hn)).mono
      fun _ _ => ⟨Nat.le_refl _, trivial⟩).le (by omega)

theorem sqrtRatio_takes (u v : Model.Fe) : Takes 400 (fun r => ∀ x, r = some x → Small x) (sqrtRatio u v) := by
  unfold sqrtRatio
  refine .step (sq_takes _) fun _ _ => ?_
  refine .step (mul_takes _ _) fun _ _ => ?_
  refine .step (sq_takes _) fun _ _ => ?_
  refine .step (mul_takes _ _) fun _ _ => ?_
  refine .step (mul_takes _ _) fun _ _ => ?_
  refine .step (pow22523_takes _) fun _ _ => ?_
  refine .step (mul_takes _ _) fun _ _ => ?_
  refine .step (mul_takes _ _) fun hx hhx => ?_
  refine .step (sq_takes _) fun _ _ => ?_
  refine .step (mul_takes _ _) fun vxx hv => ?_
  refine .step (sub_takes _ hv) fun _ _ => ?_
  refine .step (isNonzero_takes _) fun _ _ => ?_
  refine .cond (fun _ => ?_) fun _ => (takes_done (fun x e => by cases e; exact hhx))
  refine .step (add_takes _ hv) fun _ _ => ?_
  refine .step (isNonzero_takes _) fun _ _ => ?_
  refine .cond (fun _ => (takes_done (fun x e => by cases e))) fun _ => ?_
  refine .step (mul_takes _ _) fun y hy => ?_
  exact (takes_done (fun x e => by cases e; exact hy))

theorem fromBytesNegate_takes (s : Bytes) : Takes 450 (fun r => ∀ x, r = some x → Small3 x) (fromBytesNegate s) := by
  unfold fromBytesNegate
  refine .step (fromBytes_takes s) fun hy hhy => ?_
  refine .step (sq_takes _) fun u hu => ?_
  refine .step (mul_takes _ _) fun v hv => ?_
  refine .step (sub_takes _ hu) fun u hu => ?_
  refine .step (add_takes _ hv) fun v hv => ?_
  refine .step (sqrtRatio_takes u v) fun r hr => ?_
  cases r with
  | none => exact (takes_done (fun x e => by cases e))
  | some hx =>
    have hx' := hr hx rfl
    refine .step (isNegative_takes _) fun n _ => ?_
    refine .step (n := 12) (P := Small) ?_ fun hx hhx => ?_
    · exact .cond (fun _ => (neg_takes hx').le (by omega)) fun _ => (takes_done hx')
    · refine .step (mul_takes _ _) fun ht hht => ?_
      exact (takes_done (fun x e => by cases e; exact ⟨hhx, hhy, small_zero_one.2, hht⟩))

theorem verify_takes (msg sig pk : Bytes) :
    Takes (8 * msg.length + 1670000) (fun _ => True) (verify msg sig pk) := by
  unfold verify
  refine .step (takes_check _) fun _ h => ?_
  rw [beq_iff_eq] at h
  refine .cond (fun _ => (takes_done trivial)) fun h2 => ?_
  refine .cond (fun _ => (takes_done trivial)) fun _ => ?_
  refine .step (fromBytesNegate_takes pk) fun a ha => ?_
  refine .step (takes_branch _) fun _ _ => ?_
  cases a with
  | none => exact (takes_done trivial)
  | some a =>
    have hl : (sig.take 32).length ≤ 32 := by
      rw [List.length_take]
      omega
    refine .step (n := 8 * msg.length + 2100) (P := fun _ => True)
      (((hashParts_takes _).mono fun _ _ => ⟨Nat.le_refl _, trivial⟩).le ?_) fun hh _ => ?_
    · simp only [List.map_cons, List.map_nil, List.sum_cons, List.sum_nil, List.length_cons, List.length_nil]
      omega
    refine .step (takes_op _) fun hh _ => ?_
    refine .step (doubleScalarmult_takes hh a _ (ha a rfl)) fun r _ => ?_
    refine .step (toBytes_takes _ _ _) fun rc hrc => ?_
    refine .step (verify32_takes _ _ (by omega)) fun c _ => ?_
    exact (takes_done trivial)

end CryptoPure.Leak.Ed25519
