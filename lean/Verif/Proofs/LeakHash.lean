import Verif.Proofs.LeakPoly
import Verif.Leak.Hmac
import Verif.Model.Hkdf

/-! The recorded SHA-2, HMAC and HKDF compute what the model computes; two runs on inputs of equal lengths are observed
alike. -/

namespace CryptoPure.Leak

namespace Sha2
open Model.Sha2 (Params Proc)

section
variable {w : Nat} (P : Params w)

theorem readWords_val (b : Bytes) : (readWords P b).val = some (Model.Sha2.readWords P b) := val_each_pure _ _

theorem scheduleStep_val (ws : List (BitVec w)) (t : Nat) :
    (scheduleStep P ws t).val = some (Model.Sha2.scheduleStep P ws t) := by
  unfold scheduleStep Model.Sha2.scheduleStep
  simp only [val_bind, val_get, val_put, Option.bind_some]

theorem schedule_val (x : Bytes) : (schedule P x).val = some (Model.Sha2.schedule P x) := by
  unfold schedule Model.Sha2.schedule
  rw [val_bind, readWords_val, Option.bind_some, val_loop_total _ _ (scheduleStep_val P)]

theorem process_val (s : Oct w) (x : Bytes) : (process P s x).val = some (Model.Sha2.process P s x) := by
  unfold process Model.Sha2.process
  rw [val_bind, schedule_val, Option.bind_some, val_bind, val_loop_total _ (Model.Sha2.round P) (fun _ _ => rfl),
    Option.bind_some, val_pure]

theorem absorbChunk_val (s : Proc w) (c : Bytes) : (absorbChunk P s c).val = some (Model.Sha2.absorbChunk P s c) := by
  unfold absorbChunk Model.Sha2.absorbChunk
  simp only [val_bind, val_branch, Option.bind_some, val_ite, val_copy, process_val, val_pure]
  by_cases h : c.length < s.buffer.length <;> simp [h]

theorem absorbChunks_val (s : Proc w) (x : Bytes) : (absorbChunks P s x).val = some (Model.Sha2.absorbChunks P s x) :=
  val_loop_total _ _ (absorbChunk_val P) _ _

theorem update_val (s : Proc w) (x : Bytes) : (update P s x).val = Model.Sha2.update P .release s x := by
  unfold update Model.Sha2.update
  simp only [val_bind, val_branch, Option.bind_some, val_ite, val_copy, val_slice, process_val, val_pure, absorbChunks_val,
    addC_release, Option.bind_eq_bind, List.drop_zero, Nat.sub_zero]
  rw [List.take_of_length_le (l := x.drop _) (by simp)]
  by_cases h : s.offset > 0
  · by_cases h' : x.length < s.buffer.length - s.offset <;> simp [h, h']
  · simp [h]

theorem zeroRange_val (b : Bytes) (lo hi : Nat) : (zeroRange b lo hi).val = some (Model.Sha2.zeroRange b lo hi) := by
  unfold zeroRange
  rw [val_loop_total _ (fun b i => b.set i 0) (fun _ _ => rfl)]
  congr 1
  have h : ∀ (n lo : Nat) (b : Bytes), (List.range' lo n).foldl (fun (b : Bytes) i => b.set i 0) b =
      Model.Sha2.zeroRange b lo (lo + n) := by
    intro n
    induction n with
    | zero =>
      intro lo b
      unfold Model.Sha2.zeroRange
      apply List.ext_getElem?
      intro i
      rw [List.getElem?_mapIdx]
      cases hb : b[i]? with
      | none => simpa using hb
      | some v => rw [List.range'_zero, List.foldl_nil, hb, Option.map_some, if_neg (by omega)]
    | succ n ih =>
      intro lo b
      rw [List.range'_succ, List.foldl_cons, ih]
      unfold Model.Sha2.zeroRange
      apply List.ext_getElem?
      intro i
      rw [List.getElem?_mapIdx, List.getElem?_mapIdx, List.getElem?_set]
      by_cases h1 : lo = i
      · subst h1
        by_cases h2 : lo < b.length
        · simp [h2]
        · simp [h2]
      · rw [if_neg h1]
        have : (lo + 1 ≤ i ∧ i < lo + 1 + n) ↔ (lo ≤ i ∧ i < lo + (n + 1)) := by omega
        simp only [this]
  rw [h]
  by_cases hl : lo ≤ hi
  · rw [Nat.add_sub_cancel' hl]
  · unfold Model.Sha2.zeroRange
    congr 1
    funext i v
    rw [if_neg (by omega), if_neg (by omega)]

theorem pad_val (s : Proc w) : (pad P s).val = Model.Sha2.pad P .release s := by
  unfold pad Model.Sha2.pad
  simp only [val_bind, val_check, val_branch, Option.bind_some, val_ite, val_copy, val_put, process_val, val_pure,
    zeroRange_val, mulC_release, Option.bind_eq_bind]
  by_cases h : s.offset + 1 > P.blockSize - 2 * P.wordBytes <;> simp [h]

theorem procWriteDigest_val (s : Proc w) (n : Nat) :
    (procWriteDigest P s n).val = Model.Sha2.procWriteDigest P .release s n := by
  unfold procWriteDigest Model.Sha2.procWriteDigest
  simp only [val_bind, pad_val, process_val, Option.bind_some, val_each_pure, val_pure, Option.bind_eq_bind, List.flatMap_def]

/-- Processors at the same position. -/
structure SamePos (s t : Proc w) : Prop where
  buffer : s.buffer.length = t.buffer.length
  offset : s.offset = t.offset

theorem process_alike (s t : Oct w) (x y : Bytes) (h : x.length = y.length) :
    Alike Any (process P s x) (process P t y) := by
  refine .bind (R := SameLen) ?_ fun a b hab => ?_
  · refine .bind (.each_len (fun _ _ => .pure trivial) (length_of_forall₂_chunks _ _ _ h)) fun a b hab => ?_
    refine Alike.loop (Q := (· = ·)) (R := SameLen) ?_ _ _ _ _ (forall₂_eq _)
      (by simp only [SameLen, List.length_append, show a.length = b.length from hab])
    rintro s t i _ h rfl
    exact .bind (R := Any) (.get trivial) fun _ _ _ => .bind (R := Any) (.get trivial) fun _ _ _ =>
      .bind (R := Any) (.get trivial) fun _ _ _ => .bind (R := Any) (.get trivial) fun _ _ _ => .put h
  · exact .bind (Alike.loop (Q := Any) (R := Any) (fun _ _ _ _ _ _ => .pure trivial) _ _ _ _
      (forall₂_true_of_len _ _ (by simp [show a.length = b.length from hab])) trivial) fun _ _ _ => .pure trivial

theorem absorbChunk_alike (s t : Proc w) (x y : Bytes) (h : SamePos s t) (hx : x.length = y.length) :
    Alike SamePos (absorbChunk P s x) (absorbChunk P t y) :=
  .cond (by rw [hx, h.buffer]) (fun _ => .bind (.copy h.buffer hx) fun _ _ hb => .pure ⟨hb, hx⟩)
    (fun _ => .bind (process_alike P _ _ _ _ hx) fun _ _ _ => .pure ⟨h.buffer, h.offset⟩)

theorem absorbChunks_alike (s t : Proc w) (x y : Bytes) (h : SamePos s t) (hx : x.length = y.length) :
    Alike SamePos (absorbChunks P s x) (absorbChunks P t y) := by
  unfold absorbChunks
  rw [h.buffer]
  exact Alike.loop (Q := SameLen) (fun s t x y h hx => absorbChunk_alike P s t x y h hx) _ _ _ _ (forall₂_chunks _ _ _ hx) h

theorem update_alike (s t : Proc w) (x y : Bytes) (h : SamePos s t) (hx : x.length = y.length) :
    Alike SamePos (update P s x) (update P t y) := by
  unfold update
  rw [h.buffer, h.offset, hx]
  refine .cond rfl (fun _ => .cond rfl (fun _ => ?_) (fun _ => ?_)) (fun _ => ?_)
  · exact .bind (.copy h.buffer hx) fun _ _ hb => .pure ⟨hb, rfl⟩
  · exact .bind (.slice hx) fun _ _ hf => .bind (.copy h.buffer hf) fun _ _ hb =>
      .bind (process_alike P _ _ _ _ hb) fun _ _ _ => .bind (.slice hx) fun _ _ hf =>
        absorbChunks_alike P _ _ _ _ ⟨hb, rfl⟩ hf
  · exact absorbChunks_alike P _ _ _ _ ⟨h.buffer, rfl⟩ hx

theorem zeroRange_alike (b b' : Bytes) (lo hi : Nat) (h : b.length = b'.length) :
    Alike SameLen (zeroRange b lo hi) (zeroRange b' lo hi) :=
  Alike.loop (Q := (· = ·)) (R := SameLen) (by rintro s t i _ h rfl; exact .put h) _ _ _ _ (forall₂_eq _) h

theorem pad_alike (s t : Proc w) (h : SamePos s t) : Alike SamePos (pad P s) (pad P t) := by
  unfold pad
  rw [h.offset, h.buffer]
  refine .bind (.check rfl) fun _ _ _ => .bind (.put h.buffer) fun a b hab => ?_
  refine .bind (R := fun p q => p.2.1.length = q.2.1.length ∧ p.2.2 = q.2.2) ?_ ?_
  · refine .cond rfl (fun _ => ?_) (fun _ => .pure ⟨hab, rfl⟩)
    rw [show a.length = b.length from hab]
    exact .bind (zeroRange_alike _ _ _ _ hab) fun _ _ hz => .bind (process_alike P _ _ _ _ hz) fun _ _ _ => .pure ⟨hz, rfl⟩
  · rintro ⟨_, a, o⟩ ⟨_, b, o'⟩ ⟨hab, ho⟩
    dsimp only at hab ho
    subst ho
    exact .bind (zeroRange_alike _ _ _ _ hab) fun _ _ hz => .bind (.copy hz (by simp [toBE, toLE])) fun _ _ hc =>
      .pure ⟨hc, rfl⟩

theorem toBE_length (k x : Nat) : (toBE k x).length = k := by
  have : ∀ k x, (toLE k x).length = k := by
    intro k
    induction k with
    | zero => intro x; rfl
    | succ k ih => intro x; simp [toLE, ih]
  simp [toBE, this]

theorem procWriteDigest_alike (s t : Proc w) (n : Nat) (h : SamePos s t) :
    Alike SameLen (procWriteDigest P s n) (procWriteDigest P t n) :=
  .bind (pad_alike P s t h) fun _ _ h => .bind (process_alike P _ _ _ _ h.buffer) fun _ _ _ =>
    .bind (Alike.each (Q := Any) (R := SameLen)
      (fun x y _ => .pure (by rw [SameLen, toBE_length, toBE_length])) _ _
      (forall₂_true_of_len _ _ (by simp [Oct.toList])))
    fun _ _ h => .pure (forall₂_flatten _ _ h)

end

/-- The recorded hash function `H` computes what the modelled `M` computes. -/
structure Records (H : HashFunction) (M : Model.Sha2.HashFunction) (f : H.State → M.State) : Prop where
  digestSize : H.digestSize = M.digestSize
  blockSize : H.blockSize = M.blockSize
  default : f H.default = M.default
  update : ∀ s x, (H.update s x).val.map f = M.update .release (f s) x
  writeDigest : ∀ s o, (H.writeDigest s o).val = M.writeDigest .release (f s) o

theorem records_impl {w : Nat} (P : Params w) (iv : Oct w) (d b : Nat) :
    Records (implFunction P iv d b) (Model.Sha2.implFunction P iv d b) (fun s => s) where
  digestSize := rfl
  blockSize := rfl
  default := rfl
  update s x := by
    have := update_val P s x
    show (update P s x).val.map (fun s => s) = Model.Sha2.update P .release s x
    rw [this, Option.map_id']
  writeDigest s o := by
    have h : ∀ s : Proc w, (do check (d == o.length); procWriteDigest P s o.length : L Bytes).val =
        (do assert (d == o.length); Model.Sha2.procWriteDigest P .release s o.length) := by
      intro s
      rw [val_bind, val_check]
      simp only [procWriteDigest_val]
      rfl
    exact h s

/-- Runs of the hash function are observed alike on states related by `R` and inputs of equal lengths. -/
structure Steady (H : HashFunction) (R : H.State → H.State → Prop) : Prop where
  default : R H.default H.default
  update : ∀ s t x y, R s t → x.length = y.length → Alike R (H.update s x) (H.update t y)
  writeDigest : ∀ s t x y, R s t → x.length = y.length → Alike SameLen (H.writeDigest s x) (H.writeDigest t y)

theorem steady_impl {w : Nat} (P : Params w) (iv : Oct w) (d b : Nat) :
    Steady (implFunction P iv d b) (SamePos (w := w)) where
  default := ⟨rfl, rfl⟩
  update s t x y h hx := update_alike P s t x y h hx
  writeDigest s t x y h hx := by
    refine .bind (.check (by rw [hx])) fun _ _ _ => ?_
    rw [hx]
    exact procWriteDigest_alike P s t _ h

variable {H : HashFunction} {M : Model.Sha2.HashFunction} {f : H.State → M.State} {R : H.State → H.State → Prop}

theorem wrapper_val (hH : Records H M f) (x : Bytes) : (wrapper H x).val = Model.Sha2.wrapper M .release x := by
  unfold wrapper Model.Sha2.wrapper
  rw [val_bind, ← hH.default, ← hH.update, hH.digestSize]
  simp only [hH.writeDigest, Option.bind_eq_bind]
  cases (H.update H.default x).val <;> rfl

theorem wrapper_alike (hH : Steady H R) (x y : Bytes) (h : x.length = y.length) :
    Alike SameLen (wrapper H x) (wrapper H y) :=
  .bind (hH.update _ _ _ _ hH.default h) fun _ _ hs => hH.writeDigest _ _ _ _ hs rfl

end Sha2

namespace Hmac
open Sha2 (HashFunction Records Steady)

variable {H : HashFunction} {M : Model.Sha2.HashFunction} {f : H.State → M.State} {R : H.State → H.State → Prop}

/-- The state of the modelled HMAC. -/
def conv (f : H.State → M.State) (h : Hmac H) : Model.Hmac.Hmac M := ⟨f h.inner, f h.outer⟩

theorem foldlM_map {ι : Type} (g : H.State → ι → Option H.State) (g' : M.State → ι → Option M.State)
    (h : ∀ s x, (g s x).map f = g' (f s) x) : ∀ (l : List ι) (s : H.State), (l.foldlM g s).map f = l.foldlM g' (f s)
  | [], s => rfl
  | x :: l, s => by
    rw [List.foldlM_cons, List.foldlM_cons, ← h]
    cases g s x with
    | none => rfl
    | some s => exact foldlM_map g g' h l s

theorem keyed_val (hH : Records H M f) (key : Bytes) (pad : U8) :
    (keyedHashFunction H key pad).val.map f = Model.Hmac.keyedHashFunction M .release key pad := by
  unfold keyedHashFunction Model.Hmac.keyedHashFunction
  rw [val_bind, val_loop, ← hH.default, ← foldlM_map _ _ (fun s (x : U8) => hH.update s [x ^^^ pad])]
  cases List.foldlM (fun s (x : U8) => (H.update s [x ^^^ pad]).val) H.default key with
  | none => rfl
  | some s =>
    rw [Option.bind_some, val_loop, hH.blockSize]
    exact foldlM_map _ _ (fun s _ => hH.update s [pad]) _ _

theorem new_val (hH : Records H M f) (key : Bytes) : (new H key).val.map (conv f) = Model.Hmac.new M .release key := by
  have h : ∀ k : Bytes, ((do
      let i ← keyedHashFunction H k 0x36
      let o ← keyedHashFunction H k 0x5c
      pure { inner := i, outer := o } : L (Hmac H))).val.map (conv f) = (do
      let i ← Model.Hmac.keyedHashFunction M .release k 0x36
      let o ← Model.Hmac.keyedHashFunction M .release k 0x5c
      some { inner := i, outer := o }) := by
    intro k
    rw [← keyed_val hH, ← keyed_val hH, val_bind]
    cases (keyedHashFunction H k 0x36).val with
    | none => rfl
    | some i =>
      rw [Option.bind_some, val_bind]
      cases (keyedHashFunction H k 0x5c).val <;> rfl
  unfold new Model.Hmac.new
  rw [val_bind, val_bind, val_branch, Option.bind_some, val_ite, val_bind, ← hH.blockSize, ← hH.default, ← hH.update]
  by_cases hk : key.length > H.blockSize
  · simp only [hk, decide_true, if_true, val_bind, val_check, hH.writeDigest, hH.digestSize]
    cases (H.update H.default key).val with
    | none => rfl
    | some s =>
      simp only [Option.bind_some, Option.map_some, Option.bind_eq_bind]
      cases assert (decide (M.digestSize ≤ Model.Sha2.maxDigestSize)) with
      | none => rfl
      | some _ =>
        simp only [Option.bind_some]
        cases M.writeDigest .release (f s) (zeros M.digestSize) with
        | none => rfl
        | some k =>
          have := h k
          simp only [val_bind, Option.bind_eq_bind] at this
          simpa only [Option.bind_some] using this
  · simp only [hk, decide_false, if_false, Bool.false_eq_true, val_pure, Option.bind_some, Option.bind_eq_bind]
    have := h key
    simp only [Option.bind_eq_bind] at this
    exact this

theorem update_val (hH : Records H M f) (h : Hmac H) (x : Bytes) :
    (update h x).val.map (conv f) = Model.Hmac.update .release (conv f h) x := by
  unfold update Model.Hmac.update
  rw [val_bind, show (conv f h).inner = f h.inner from rfl, ← hH.update]
  cases (H.update h.inner x).val <;> rfl

theorem writeTag_val (hH : Records H M f) (h : Hmac H) (o : Bytes) :
    (writeTag h o).val = Model.Hmac.writeTag .release (conv f h) o := by
  unfold writeTag Model.Hmac.writeTag
  rw [val_bind, val_check, hH.digestSize]
  congr 1
  funext _
  rw [val_bind, hH.writeDigest]
  congr 1
  funext o
  rw [val_bind, show (conv f h).outer = f h.outer from rfl, ← hH.update]
  cases (H.update h.outer o).val with
  | none => rfl
  | some s => exact hH.writeDigest s o

theorem tag_val (hH : Records H M f) (h : Hmac H) : (tag h).val = Model.Hmac.tag .release (conv f h) := by
  unfold tag Model.Hmac.tag
  rw [val_bind, val_check, hH.digestSize]
  congr 1
  funext _
  exact writeTag_val hH h _

/-- A keyed run that continues after `new` and one `update`. -/
theorem start_val {β : Type} (hH : Records H M f) (key x : Bytes) (k : Hmac H → L β) (k' : Model.Hmac.Hmac M → Option β)
    (hk : ∀ h, (k h).val = k' (conv f h)) :
    (do let h ← new H key; let h ← update h x; k h : L β).val =
      (do let h ← Model.Hmac.new M .release key; let h ← Model.Hmac.update .release h x; k' h) := by
  rw [val_bind, ← new_val hH]
  cases (new H key).val with
  | none => rfl
  | some h =>
    rw [Option.bind_some, val_bind]
    simp only [Option.map_some, Option.bind_eq_bind, Option.bind_some]
    rw [← update_val hH]
    cases (update h x).val with
    | none => rfl
    | some h => exact hk h

theorem wrapper_val (hH : Records H M f) (key x : Bytes) :
    (wrapper H key x).val = Model.Hmac.wrapper M .release key x := by
  unfold wrapper Model.Hmac.wrapper
  rw [hH.digestSize]
  exact start_val hH key x _ _ fun h => writeTag_val hH h _

theorem verify_val (hH : Records H M f) (key x t : Bytes) :
    (verify H key x t).val = Model.Hmac.verify M .release key x t := by
  unfold verify Model.Hmac.verify
  refine start_val hH key x _ _ fun h => ?_
  rw [val_bind, tag_val hH]
  congr 1
  funext e
  rw [val_bind, val_branch, Option.bind_some, val_ite, val_bind, Util.verifyInner_val]
  rfl

/-- HMAC states related componentwise. -/
structure Both (R : H.State → H.State → Prop) (h h' : Hmac H) : Prop where
  inner : R h.inner h'.inner
  outer : R h.outer h'.outer

theorem keyed_alike (hH : Steady H R) (k k' : Bytes) (pad : U8) (hk : k.length = k'.length) :
    Alike R (keyedHashFunction H k pad) (keyedHashFunction H k' pad) := by
  unfold keyedHashFunction
  rw [hk]
  exact .bind (Alike.loop (Q := Any) (fun s t x y h _ => hH.update s t [x ^^^ pad] [y ^^^ pad] h rfl) _ _ _ _ (forall₂_true_of_len _ _ hk)
    hH.default) fun _ _ h => Alike.loop (Q := (· = ·)) (fun s t x y h _ => hH.update _ _ _ _ h rfl) _ _ _ _ (forall₂_eq _) h

theorem new_alike (hH : Steady H R) (k k' : Bytes) (hk : k.length = k'.length) : Alike (Both R) (new H k) (new H k') := by
  refine .bind (R := SameLen) ?_ fun _ _ h => .bind (keyed_alike hH _ _ _ h) fun _ _ hi =>
    .bind (keyed_alike hH _ _ _ h) fun _ _ ho => .pure ⟨hi, ho⟩
  exact .cond (by rw [hk]) (fun _ => .bind (hH.update _ _ _ _ hH.default hk) fun _ _ hs => .bind (.check rfl) fun _ _ _ =>
    hH.writeDigest _ _ _ _ hs rfl) (fun _ => .pure hk)

theorem update_alike (hH : Steady H R) (h h' : Hmac H) (x y : Bytes) (hh : Both R h h') (hx : x.length = y.length) :
    Alike (Both R) (update h x) (update h' y) :=
  .bind (hH.update _ _ _ _ hh.inner hx) fun _ _ hi => .pure ⟨hi, hh.outer⟩

theorem writeTag_alike (hH : Steady H R) (h h' : Hmac H) (o o' : Bytes) (hh : Both R h h') (ho : o.length = o'.length) :
    Alike SameLen (writeTag h o) (writeTag h' o') :=
  .bind (.check (by rw [ho])) fun _ _ _ => .bind (hH.writeDigest _ _ _ _ hh.inner ho) fun _ _ ho =>
    .bind (hH.update _ _ _ _ hh.outer ho) fun _ _ hs => hH.writeDigest _ _ _ _ hs ho

theorem tag_alike (hH : Steady H R) (h h' : Hmac H) (hh : Both R h h') : Alike SameLen (tag h) (tag h') :=
  .bind (.check rfl) fun _ _ _ => writeTag_alike hH h h' _ _ hh rfl

theorem wrapper_alike (hH : Steady H R) (k x k' x' : Bytes) (hk : k.length = k'.length) (hx : x.length = x'.length) :
    Alike SameLen (wrapper H k x) (wrapper H k' x') :=
  .bind (new_alike hH _ _ hk) fun _ _ h => .bind (update_alike hH _ _ _ _ h hx) fun _ _ h =>
    writeTag_alike hH _ _ _ _ h rfl

theorem verify_alike (hH : Steady H R) (k x t k' x' t' : Bytes) (hk : k.length = k'.length) (hx : x.length = x'.length)
    (ht : t.length = t'.length) : Alike Any (verify H k x t) (verify H k' x' t') :=
  .bind (new_alike hH _ _ hk) fun _ _ h => .bind (update_alike hH _ _ _ _ h hx) fun _ _ h =>
    .bind (tag_alike hH _ _ h) fun _ _ he => .cond (by rw [ht, show _ = _ from he])
      (fun _ => .bind (Util.verifyInner_alike _ _ _ _ he ht) fun _ _ _ => .pure trivial) (fun _ => .pure trivial)

end Hmac

namespace Hkdf
open Sha2 (HashFunction Records Steady)
open Hmac (conv Both)

variable {H : HashFunction} {M : Model.Sha2.HashFunction} {f : H.State → M.State} {R : H.State → H.State → Prop}

theorem extract_val (hH : Records H M f) (salt ikm prk : Bytes) :
    (extract H salt ikm prk).val = Model.Hkdf.extract M .release salt ikm prk := by
  unfold extract Model.Hkdf.extract
  rw [val_bind, val_check, hH.digestSize]
  congr 1
  funext _
  refine Hmac.start_val hH salt ikm _ _ fun h => ?_
  simp only [val_bind, Hmac.tag_val hH, val_check, val_pure, Option.bind_eq_bind]

theorem expandLoop_val (hH : Records H M f) (prk info : Bytes) : ∀ (l : List Bytes) (i : U8) (h : Hmac.Hmac H),
    (expandLoop H prk info l i h).val = Model.Hkdf.expandLoop M .release prk info l i (conv f h)
  | [], i, h => by simp [expandLoop, Model.Hkdf.expandLoop, rangeNext_release]
  | c :: l, i, h => by
    simp only [expandLoop, Model.Hkdf.expandLoop, rangeNext_release, Option.bind_eq_bind, Option.bind_some]
    rw [val_bind, val_branch, Option.bind_some, val_bind, ← Hmac.update_val hH]
    cases (Hmac.update h info).val with
    | none => rfl
    | some h =>
      rw [Option.bind_some, val_bind, Option.map_some, Option.bind_some, ← Hmac.update_val hH]
      cases (Hmac.update h [i]).val with
      | none => rfl
      | some h =>
        rw [Option.bind_some, val_bind, Option.map_some, Option.bind_some, Hmac.tag_val hH]
        congr 1
        funext t
        rw [val_bind, val_branch, Option.bind_some, val_ite, hH.digestSize]
        by_cases hc : c.length < M.digestSize
        · simp [hc]
        · simp only [hc, decide_false, if_false, Bool.false_eq_true, val_bind, val_check]
          congr 1
          funext _
          have := Hmac.start_val hH prk t (fun h => expandLoop H prk info l (i + 1) h)
            (fun h => Model.Hkdf.expandLoop M .release prk info l (i + 1) h) (expandLoop_val hH prk info l (i + 1))
          simp only [val_bind, Option.bind_eq_bind] at this
          simp only [val_pure, ← Option.bind_assoc, this]

theorem expand_val (hH : Records H M f) (prk info okm : Bytes) :
    (expand H prk info okm).val = Model.Hkdf.expand M .release prk info okm := by
  unfold expand Model.Hkdf.expand
  simp only [val_bind, val_check, val_pure, Option.bind_eq_bind, expandLoop_val hH, hH.digestSize, ← Hmac.new_val hH]
  congr 1
  funext _
  congr 1
  funext _
  cases (Hmac.new H prk).val <;> rfl

theorem extract_alike (hH : Steady H R) (s i p s' i' p' : Bytes) (hs : s.length = s'.length) (hi : i.length = i'.length)
    (hp : p.length = p'.length) : Alike SameLen (extract H s i p) (extract H s' i' p') :=
  .bind (.check (by rw [hp])) fun _ _ _ => .bind (Hmac.new_alike hH _ _ hs) fun _ _ h =>
    .bind (Hmac.update_alike hH _ _ _ _ h hi) fun _ _ h => .bind (Hmac.tag_alike hH _ _ h) fun _ _ ht =>
      .bind (.check (by rw [hp, show _ = _ from ht])) fun _ _ _ => .pure ht

theorem expandLoop_alike (hH : Steady H R) (p n p' n' : Bytes) (hp : p.length = p'.length) (hn : n.length = n'.length) :
    ∀ (l l' : List Bytes) (i : U8) (h h' : Hmac.Hmac H), List.Forall₂ SameLen l l' → Both R h h' →
      Alike (List.Forall₂ SameLen) (expandLoop H p n l i h) (expandLoop H p' n' l' i h')
  | [], [], _, _, _, _, _ => .bind (.branch rfl) fun _ _ _ => .pure .nil
  | c :: l, c' :: l', i, h, h', .cons hc hl, hh => by
    refine .bind (.branch rfl) fun _ _ _ => .bind (Hmac.update_alike hH _ _ _ _ hh hn) fun _ _ hh =>
      .bind (Hmac.update_alike hH _ _ _ _ hh rfl) fun _ _ hh => .bind (Hmac.tag_alike hH _ _ hh) fun t t' ht => ?_
    have ht : t.length = t'.length := ht
    have hc : c.length = c'.length := hc
    rw [hc]
    refine .cond rfl (fun _ => .bind (.check (by rw [ht])) fun _ _ _ => .pure (.cons (by simp [SameLen, ht]) hl)) (fun _ => ?_)
    exact .bind (.check (by rw [ht])) fun _ _ _ => .bind (Hmac.new_alike hH _ _ hp) fun _ _ hh =>
      .bind (Hmac.update_alike hH _ _ _ _ hh ht) fun _ _ hh =>
      .bind (expandLoop_alike hH p n p' n' hp hn l l' _ _ _ hl hh) fun _ _ hr => .pure (.cons ht hr)

theorem expand_alike (hH : Steady H R) (p n o p' n' o' : Bytes) (hp : p.length = p'.length) (hn : n.length = n'.length)
    (ho : o.length = o'.length) : Alike SameLen (expand H p n o) (expand H p' n' o') :=
  .bind (.check (by rw [hp])) fun _ _ _ => .bind (.check (by rw [ho])) fun _ _ _ => .bind (Hmac.new_alike hH _ _ hp) fun _ _ h =>
    .bind (.check rfl) fun _ _ _ => .bind (expandLoop_alike hH p n p' n' hp hn _ _ _ _ _ (forall₂_chunks _ _ _ ho) h)
      fun _ _ h => .pure (forall₂_flatten _ _ h)

end Hkdf
end CryptoPure.Leak
