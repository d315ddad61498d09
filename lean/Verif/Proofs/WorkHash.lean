import Verif.Proofs.Work
import Verif.Proofs.LeakHash
import Verif.Proofs.Basic

/-! How many events the recorded SHA-2, HMAC and HKDF functions have. Every byte waiting in a buffer carries a credit of 8,
which pays for the compression when the buffer is full. -/

namespace CryptoPure.Leak

theorem chunks_count {α : Type} {n : Nat} (hn : 0 < n) (l : List α) : (chunks n l).length ≤ l.length / n + 1 := by
  rw [chunks_length hn]
  have : l.length + n - 1 ≤ l.length + n := by omega
  calc (l.length + n - 1) / n ≤ (l.length + n) / n := Nat.div_le_div_right this
    _ = l.length / n + 1 := Nat.add_div_right _ hn

theorem chunks_small {α : Type} {n : Nat} (hn : 0 < n) (l : List α) : ∀ c ∈ chunks n l, c.length ≤ n := by
  induction hm : l.length using Nat.strongRecOn generalizing l with
  | _ m ih =>
    intro c hc
    by_cases hl : l = []
    · subst hl
      simp at hc
    · rw [chunks_of_ne_nil hn hl] at hc
      have := List.length_pos_iff.2 hl
      rcases List.mem_cons.1 hc with rfl | hc
      · rw [List.length_take]
        omega
      · exact ih (l.drop n).length (by rw [List.length_drop]; omega) (l.drop n) rfl c hc

theorem flatten_small {α : Type} {k : Nat} (ls : List (List α)) (h : ∀ l ∈ ls, l.length ≤ k) :
    ls.flatten.length ≤ ls.length * k := by
  induction ls with
  | nil => simp
  | cons l ls ih =>
    rw [List.flatten_cons, List.length_append, List.length_cons, Nat.succ_mul]
    have := ih fun x hx => h x (by simp [hx])
    have := h l (by simp)
    omega

namespace Sha2
open Model.Sha2 (Params Proc)

section
variable {w : Nat} (P : Params w)

/-- The parameters of the four hash functions. -/
structure Sizes : Prop where
  word : 4 ≤ P.wordBytes ∧ P.wordBytes ≤ 8
  block : P.blockSize = 16 * P.wordBytes
  k : P.k.length ≤ 80
  rounds : P.rounds ≤ 80

variable {P} (hP : Sizes P)
include hP

theorem process_takes (s : Oct w) (x : Bytes) (hx : x.length ≤ P.blockSize) :
    Takes 484 (fun _ => True) (process P s x) := by
  have hw := hP.word
  have hB := hP.block
  unfold process schedule readWords
  have hc : (chunks P.wordBytes x).length ≤ 17 := by
    refine Nat.le_trans (chunks_count (by omega) x) ?_
    have : x.length / P.wordBytes ≤ 16 := by
      refine Nat.div_le_of_le_mul ?_
      rw [Nat.mul_comm, ← hB]
      exact hx
    omega
  have H : Takes (18 + (385 + (81 + 0))) (fun _ => True) (process P s x) := by
    unfold process schedule readWords
    rw [show (18 + (385 + (81 + 0))) = (18 + 385) + (81 + 0) from rfl]
    refine .seq (P := fun _ => True) (.seq (P := fun _ => True) ?_ fun ws _ => ?_) fun ws _ => .seq (P := fun _ => True) ?_ fun v _ =>
      takes_pure trivial
    · exact (takes_each_le (k := 0) (P := fun _ => True) (fun _ => takes_pure trivial) _ hc).mono fun _ _ =>
        ⟨Nat.le_refl _, trivial⟩
    · refine (takes_loop (n := 64) (k := 5) (P := fun _ => True) (Q := fun _ => True) (fun s i _ _ => ?_) _ _
        (fun _ _ => trivial) trivial ?_).le (by omega)
      · exact .seq (takes_get _ _ _) fun _ _ => .seq (takes_get _ _ _) fun _ _ => .seq (takes_get _ _ _) fun _ _ =>
          .seq (takes_get _ _ _) fun _ _ => (takes_put _ _ _).mono fun _ _ => ⟨Nat.le_refl _, trivial⟩
      · have := hP.rounds
        simp only [List.length_range']
        omega
    · refine (takes_loop (n := 80) (k := 0) (P := fun _ => True) (Q := fun _ => True) (fun s i _ _ => takes_pure trivial) _ _
        (fun _ _ => trivial) trivial ?_)
      rw [List.length_zip]
      have := hP.k
      omega
  exact H.le (by omega)

/-- The credit: 8 for every byte waiting. -/
def credit (s : Proc w) : Nat := 8 * s.offset

/-- The buffer is a block and the position is in it. -/
def Ready (P : Params w) (s : Proc w) : Prop := s.buffer.length = P.blockSize ∧ s.offset ≤ P.blockSize

/-- What a chunk costs, beyond the event of the loop. -/
def chunkCost (b : Nat) (x : Bytes) : Nat := if x.length < b then 8 * x.length + 3 else 8 * x.length - 1

theorem absorbChunk_within (s : Proc w) (x : Bytes) (hs : Ready P s) (hx : x.length ≤ P.blockSize) :
    Within (credit s + chunkCost P.blockSize x) credit (Ready P)
      (absorbChunk P s x) := by
  have hw := hP.word
  have hB := hP.block
  obtain ⟨h1, h2⟩ := hs
  unfold absorbChunk
  refine .cond (fun h => ?_) (fun h => ?_) ?_
  · rw [h1, decide_eq_true_eq] at h
    rw [chunkCost, if_pos h]
    refine .step (takes_copy _ _ _) fun b hb => ?_
    refine (Within.pure (φ := credit) (P := Ready P) ⟨?_, ?_⟩).le ?_
    · show b.length = _
      rw [hb, copyAt_length (by omega)]
      exact h1
    · exact Nat.le_of_lt h
    · simp only [credit]
      omega
  · rw [h1, decide_eq_false_iff_not] at h
    rw [chunkCost, if_neg h]
    refine .step (process_takes hP s.state x hx) (fun st _ => ?_) ?_
    · refine (Within.pure (φ := credit) (P := Ready P) (a := { s with state := st }) ⟨h1, h2⟩).le ?_
      simp only [credit]
      omega
    · omega
  · rw [chunkCost]
    split <;> omega

theorem chunk_sum (x : Bytes) :
    (((chunks P.blockSize x).map (chunkCost P.blockSize)).sum +
      (chunks P.blockSize x).length) ≤ 8 * x.length + 4 := by
  have hw := hP.word
  have hB := hP.block
  have hpos : 0 < P.blockSize := by omega
  induction hm : x.length using Nat.strongRecOn generalizing x with
  | _ m ih =>
    subst hm
    by_cases hl : x = []
    · subst hl
      simp
    · have := List.length_pos_iff.2 hl
      by_cases hb : x.length < P.blockSize
      · rw [chunks_singleton hl (Nat.le_of_lt hb)]
        simp only [List.map_cons, List.map_nil, List.sum_cons, List.sum_nil, List.length_cons, List.length_nil, chunkCost, if_pos hb]
        omega
      · rw [chunks_of_ne_nil hpos hl]
        have hd : (x.drop P.blockSize).length = x.length - P.blockSize := List.length_drop
        have ht : (x.take P.blockSize).length = P.blockSize := by
          rw [List.length_take]
          omega
        have := ih (x.drop P.blockSize).length (by omega) _ rfl
        simp only [List.map_cons, List.sum_cons, List.length_cons, chunkCost, ht, Nat.lt_irrefl, if_false] at this ⊢
        omega

theorem absorbChunks_within (s : Proc w) (x : Bytes) (hs : Ready P s) :
    Within (credit s + 8 * x.length + 5) credit (Ready P) (absorbChunks P s x) := by
  have hw := hP.word
  have hB := hP.block
  unfold absorbChunks
  rw [hs.1]
  refine (within_loop_sum (φ := credit) (P := Ready P) (Q := fun x => x.length ≤ P.blockSize)
    (fun s x hs hx => absorbChunk_within hP s x hs hx) _ s (chunks_small (by omega) x) hs).le ?_
  have := chunk_sum hP x
  omega

theorem update_within (s : Proc w) (x : Bytes) (hs : Ready P s) :
    Within (credit s + 8 * x.length + 16) credit (Ready P) (update P s x) := by
  have hw := hP.word
  have hB := hP.block
  obtain ⟨h1, h2⟩ := hs
  unfold update
  refine .cond (fun h => ?_) fun h => ?_
  · refine .cond (fun h' => ?_) fun h' => ?_
    · rw [h1, decide_eq_true_eq] at h'
      refine .step (takes_copy _ _ _) fun b hb => ?_
      refine (Within.pure (φ := credit) (P := Ready P) ⟨?_, ?_⟩).le ?_
      · show b.length = _
        rw [hb, copyAt_length (by omega)]
        exact h1
      · show s.offset + x.length ≤ _
        omega
      · simp only [credit]
        omega
    · rw [h1, decide_eq_false_iff_not] at h'
      rw [h1]
      simp only [credit]
      refine .step (takes_slice _ _ _) fun front hf => ?_
      refine .step (takes_copy _ _ _) fun buf hb => ?_
      have hbl : buf.length = P.blockSize := by
        have hfl : front.length ≤ P.blockSize - s.offset := by
          rw [hf, List.length_take]
          omega
        rw [hb, copyAt_length (by omega)]
        exact h1
      refine .step (process_takes hP _ _ (by omega)) fun st _ => ?_
      refine .step (takes_slice _ _ _) fun back hk => ?_
      refine (absorbChunks_within hP _ back ⟨hbl, Nat.zero_le _⟩).le ?_
      have hkl : back.length = x.length - (P.blockSize - s.offset) := by
        rw [hk]
        simp
      simp only [credit, hkl]
      omega
  · refine (absorbChunks_within hP { s with len := s.len + BitVec.ofNat 64 x.length } x ⟨h1, h2⟩).le ?_
    simp only [credit]
    omega

theorem zeroRange_takes (b : Bytes) (lo hi : Nat) (h : hi ≤ 128) :
    Takes 257 (fun a => a.length = b.length) (zeroRange b lo hi) :=
  takes_loop (n := 128) (k := 1) (P := fun a => a.length = b.length) (Q := fun _ => True)
    (fun s i hs _ => (takes_put _ _ _).mono fun a ha => ⟨Nat.le_refl _, by rw [ha, List.length_set, hs]⟩) _ _
    (fun _ _ => trivial) rfl (by simp only [List.length_range']; omega)

theorem pad_takes (s : Proc w) (hs : Ready P s) :
    Takes 1010 (fun s => s.buffer.length = P.blockSize) (pad P s) := by
  have hw := hP.word
  have hB := hP.block
  obtain ⟨h1, h2⟩ := hs
  unfold pad
  refine .step (takes_check _) fun _ _ => ?_
  refine .step (takes_put _ _ _) fun buf hbuf => ?_
  have hbl : buf.length = P.blockSize := by rw [hbuf, List.length_set, h1]
  refine .step (n := 745) (P := fun r : Oct w × Bytes × Nat => r.2.1.length = P.blockSize) ?_ fun r hr => ?_
  · refine .cond (fun _ => ?_) fun _ => ?_
    · refine .step (zeroRange_takes hP buf _ _ (by omega)) fun b hb => ?_
      refine .step (process_takes hP _ b (by omega)) fun st _ => ?_
      exact (takes_pure (by show b.length = _; omega)).le (by omega)
    · exact (takes_pure (a := (s.state, buf, s.offset + 1)) (P := fun r => r.2.1.length = P.blockSize) hbl).le (by omega)
  · obtain ⟨st, b, off⟩ := r
    refine .step (zeroRange_takes hP b _ _ (by omega)) fun b' hb' => ?_
    refine .step (takes_copy _ _ _) fun b'' hb'' => ?_
    refine (takes_pure ?_).le (by omega)
    show b''.length = _
    have hr : b.length = P.blockSize := hr
    have ht := toBE_length 8 (8 * s.len).toNat
    rw [hb'', copyAt_length (by omega), hb', hr]

theorem procWriteDigest_takes (s : Proc w) (n : Nat) (hs : Ready P s) :
    Takes 1509 (fun d => d.length ≤ 64) (procWriteDigest P s n) := by
  have hw := hP.word
  unfold procWriteDigest
  refine .step (pad_takes hP s hs) fun s hs => ?_
  refine .step (process_takes hP _ _ (by omega)) fun st _ => ?_
  have hl : (st.toList.take (n / P.wordBytes)).length ≤ 8 := by
    rw [List.length_take]
    have : st.toList.length = 8 := rfl
    omega
  refine .step (takes_each_le (n := 8) (k := 0) (P := fun d => d.length ≤ 8) (fun x => takes_pure (by rw [toBE_length]; omega)) _ hl)
    fun cs hcs => ?_
  refine (takes_pure ?_).le (by omega)
  have := flatten_small cs hcs.2
  omega

end

/-- What is needed of a hash function: updating takes 8 events for a byte and 16 for the call. -/
structure Work (H : HashFunction) (φ : H.State → Nat) (W : H.State → Prop) : Prop where
  sizes : H.blockSize ≤ 128 ∧ 28 ≤ H.digestSize
  default : φ H.default = 0 ∧ W H.default
  update : ∀ s x, W s → Within (φ s + 8 * x.length + 16) φ W (H.update s x)
  writeDigest : ∀ s o, W s → Takes 1510 (fun d => d.length ≤ 64) (H.writeDigest s o)

theorem work_impl {w : Nat} {P : Params w} (hP : Sizes P) (iv : Oct w) (d b : Nat) (hb : b ≤ 128) (hd : 28 ≤ d) :
    Work (implFunction P iv d b) credit (Ready P) where
  sizes := ⟨hb, hd⟩
  default := ⟨rfl, by simp [implFunction, Model.Sha2.new, zeros], Nat.zero_le _⟩
  update := fun s x h => update_within hP s x h
  writeDigest := fun s o h => .step (takes_check _) fun _ _ => procWriteDigest_takes hP s _ h

theorem sizes512 : Sizes Model.Sha2.P512 := ⟨by decide, by decide, by decide, by decide⟩
theorem sizes256 : Sizes Model.Sha2.P256 := ⟨by decide, by decide, by decide, by decide⟩

end Sha2

namespace Hmac
open Sha2 (HashFunction Work)

variable {H : HashFunction} {φ : H.State → Nat} {W : H.State → Prop} (hH : Work H φ W)

/-- The credit of the inner and the outer hash. -/
def credit (φ : H.State → Nat) (h : Hmac H) : Nat := φ h.inner + φ h.outer

/-- Both hashes are ready. -/
def Ready (W : H.State → Prop) (h : Hmac H) : Prop := W h.inner ∧ W h.outer

include hH

theorem keyed_within (key : Bytes) (pad : U8) (hk : key.length ≤ 128) :
    Within 3210 φ W (keyedHashFunction H key pad) := by
  have hs := hH.sizes
  unfold keyedHashFunction
  have h1 := within_loop_sum (φ := φ) (P := W) (Q := fun _ : U8 => True) (c := fun _ => 24)
    (f := fun s byte => H.update s [byte ^^^ pad])
    (fun s x hs _ => (hH.update s [x ^^^ pad] hs).le (by simp only [List.length_cons, List.length_nil]; omega))
    key H.default (fun _ _ => trivial) hH.default.2
  rw [sum_const, hH.default.1] at h1
  have h2 := h1.bind (k := (List.range' key.length (H.blockSize - key.length)).length * 24 +
      (List.range' key.length (H.blockSize - key.length)).length + 1) (ψ := φ) (Q := W)
    (f := fun s => loop (fun s _ => H.update s [pad]) (List.range' key.length (H.blockSize - key.length)) s) fun s hs => by
      have h := within_loop_sum (φ := φ) (P := W) (Q := fun _ : Nat => True) (c := fun _ => 24)
        (f := fun s _ => H.update s [pad])
        (fun s x hs _ => (hH.update s [pad] hs).le (by simp only [List.length_cons, List.length_nil]; omega))
        (List.range' key.length (H.blockSize - key.length)) s (fun _ _ => trivial) hs
      rw [sum_const] at h
      exact h.le (by omega)
  refine h2.le ?_
  rw [List.length_range']
  omega

theorem new_within (key : Bytes) : Within (8 * key.length + 8000) (credit φ) (Ready W) (new H key) := by
  have hs := hH.sizes
  unfold new
  refine .step (n := 8 * key.length + 1528) (P := fun k : Bytes => k.length ≤ 128) ?_ fun nk hk => ?_
  · refine .cond (fun _ => ?_) fun h => ?_
    · have h1 := hH.update H.default key hH.default.2
      rw [hH.default.1] at h1
      refine (h1.bind (k := 1511) (ψ := fun _ => 0) fun s hs => ?_).le (by omega)
      refine .step (takes_check _) fun _ _ => ?_
      exact ((hH.writeDigest s _ hs).le (by omega)).mono fun d hd => ⟨Nat.le_refl _, by omega⟩
    · rw [decide_eq_false_iff_not] at h
      exact (takes_pure (by omega)).le (by omega)
  · refine ((keyed_within hH nk 0x36 hk).bind (k := 3210) (ψ := credit φ) (Q := Ready W) fun i hi => ?_).le (by omega)
    refine (((keyed_within hH nk 0x5c hk).bind (k := φ i) (ψ := credit φ) (Q := Ready W) fun o ho => ?_)).le (by omega)
    exact (Within.pure (φ := credit φ) (P := Ready W) (a := { inner := i, outer := o }) ⟨hi, ho⟩).le
      (by simp only [credit]; omega)

theorem update_within (h : Hmac H) (x : Bytes) (hr : Ready W h) :
    Within (credit φ h + 8 * x.length + 16) (credit φ) (Ready W) (update h x) := by
  unfold update
  refine ((hH.update h.inner x hr.1).bind (k := φ h.outer) (ψ := credit φ) (Q := Ready W) fun i hi => ?_).le
    (by simp only [credit]; omega)
  exact (Within.pure (φ := credit φ) (P := Ready W) (a := { h with inner := i }) ⟨hi, hr.2⟩).le
    (by simp only [credit]; omega)

theorem writeTag_takes (h : Hmac H) (o : Bytes) (hr : Ready W h) :
    Takes (credit φ h + 3600) (fun t => t.length ≤ 64) (writeTag h o) := by
  unfold writeTag
  refine .step (takes_check _) fun _ _ => ?_
  refine .step (hH.writeDigest _ _ hr.1) fun d hd => ?_
  refine ((hH.update h.outer d hr.2).bind (k := 1510) (ψ := fun _ => 0) fun s hs => ?_).le (by simp only [credit]; omega)
  exact (hH.writeDigest s _ hs).le (by omega)

theorem tag_takes (h : Hmac H) (hr : Ready W h) : Takes (credit φ h + 3601) (fun t => t.length ≤ 64) (tag h) := by
  unfold tag
  refine .step (takes_check _) fun _ _ => ?_
  exact (writeTag_takes hH h _ hr).le (by omega)

/-- The tag of a message given in parts. -/
theorem parts_takes (key : Bytes) (parts : List Bytes) :
    Takes (8 * (key.length + (parts.map List.length).sum) + 17 * parts.length + 11602) (fun t => t.length ≤ 64)
      (do let h ← new H key; let h ← loop update parts h; tag h) := by
  refine ((new_within hH key).bind (k := 8 * (parts.map List.length).sum + 17 * parts.length + 3602) fun h hr => ?_).le (by omega)
  refine ((within_loop_sum (φ := credit φ) (P := Ready W) (Q := fun _ => True) (c := fun x => 8 * x.length + 16)
    (fun s x hs _ => (update_within hH s x hs).le (by omega)) parts h (fun _ _ => trivial) hr).bind (k := 3601) (ψ := fun _ => 0)
      fun h hr => tag_takes hH h hr).le ?_
  have : (parts.map fun x => 8 * x.length + 16).sum = 8 * (parts.map List.length).sum + 16 * parts.length := by
    induction parts with
    | nil => rfl
    | cons x xs ih =>
      simp only [List.map_cons, List.sum_cons, List.length_cons, ih]
      omega
  omega

theorem verify_takes (key msg tag' : Bytes) :
    Takes (8 * (key.length + msg.length) + 12000) (fun _ => True) (verify H key msg tag') := by
  unfold verify
  refine ((new_within hH key).bind (k := 8 * msg.length + 4000) fun h hr => ?_).le (by omega)
  refine ((update_within hH h msg hr).bind (k := 3980) fun h hr => ?_).le (by omega)
  refine .step (tag_takes hH h hr) fun e he => ?_
  refine .cond (fun _ => ?_) fun _ => (takes_pure trivial).le (by omega)
  refine .step (n := 66) (P := fun _ => True) ?_ fun _ _ => (takes_pure trivial).le (by omega)
  unfold Util.verifyInner
  refine .step (takes_check _) fun _ _ => ?_
  exact takes_loop (n := 64) (k := 0) (P := fun _ => True) (Q := fun _ => True) (fun _ _ _ _ => takes_pure trivial) _ _
    (fun _ _ => trivial) trivial (by rw [List.length_zip]; omega)

end Hmac

namespace Hkdf
open Sha2 (HashFunction Work)

variable {H : HashFunction} {φ : H.State → Nat} {W : H.State → Prop} (hH : Work H φ W)
include hH

theorem extract_takes (salt ikm prk : Bytes) :
    Takes (8 * (salt.length + ikm.length) + 12000) (fun _ => True) (extract H salt ikm prk) := by
  unfold extract
  refine .step (takes_check _) fun _ _ => ?_
  refine ((Hmac.new_within hH salt).bind (k := 8 * ikm.length + 3900) fun h hr => ?_).le (by omega)
  refine ((Hmac.update_within hH h ikm hr).bind (k := 3800) fun h hr => ?_).le (by omega)
  refine .step (Hmac.tag_takes hH h hr) fun e he => ?_
  exact .step (takes_check _) fun _ _ => (takes_pure trivial).le (by omega)

theorem expandLoop_takes (prk info : Bytes) : ∀ (cs : List Bytes) (i : U8) (h : Hmac.Hmac H), Hmac.Ready W h →
    Takes (Hmac.credit φ h + cs.length * (8 * (prk.length + info.length) + 12200) + 1) (fun _ => True)
      (expandLoop H prk info cs i h)
  | [], i, h, hr => by
    unfold expandLoop
    exact .step (takes_branch _) fun _ _ => (takes_pure trivial).le (by omega)
  | c :: cs, i, h, hr => by
    unfold expandLoop
    rw [List.length_cons, Nat.succ_mul]
    refine .step (takes_branch _) fun _ _ => ?_
    refine ((Hmac.update_within hH h info hr).bind
      (k := cs.length * (8 * (prk.length + info.length) + 12200) + 8 * prk.length + 12184) fun h hr => ?_).le (by omega)
    refine ((Hmac.update_within hH h [i] hr).bind
      (k := cs.length * (8 * (prk.length + info.length) + 12200) + 8 * prk.length + 12160) fun h hr => ?_).le
      (by simp only [List.length_cons, List.length_nil]; omega)
    refine .step (Hmac.tag_takes hH h hr) fun t ht => ?_
    refine .cond (fun _ => ?_) fun _ => ?_
    · exact .step (takes_check _) fun _ _ => (takes_pure trivial).le (by omega)
    · refine .step (takes_check _) fun _ _ => ?_
      refine ((Hmac.new_within hH prk).bind
        (k := cs.length * (8 * (prk.length + info.length) + 12200) + 529) fun h hr => ?_).le (by omega)
      refine ((Hmac.update_within hH h t hr).bind
        (k := cs.length * (8 * (prk.length + info.length) + 12200) + 1) fun h hr => ?_).le (by omega)
      exact .step (expandLoop_takes prk info cs (i + 1) h hr) fun _ _ => (takes_pure trivial).le (by omega)

theorem expand_takes (prk info okm : Bytes) :
    Takes ((okm.length / H.digestSize + 2) * (8 * (prk.length + info.length) + 12200)) (fun _ => True)
      (expand H prk info okm) := by
  have hs := hH.sizes
  unfold expand
  have hc := chunks_count (n := H.digestSize) (by omega) okm
  have hm := Nat.mul_le_mul_right (8 * (prk.length + info.length) + 12200) hc
  have e : (okm.length / H.digestSize + 2) * (8 * (prk.length + info.length) + 12200) =
    (okm.length / H.digestSize + 1) * (8 * (prk.length + info.length) + 12200) + (8 * (prk.length + info.length) + 12200) :=
    Nat.succ_mul _ _
  rw [e]
  refine .step (takes_check _) fun _ _ => ?_
  refine .step (takes_check _) fun _ _ => ?_
  refine ((Hmac.new_within hH prk).bind
    (k := (okm.length / H.digestSize + 1) * (8 * (prk.length + info.length) + 12200) + 4000) fun h hr => ?_).le (by omega)
  refine .step (takes_check _) fun _ _ => ?_
  exact .step (expandLoop_takes hH prk info _ 1 h hr) fun _ _ => (takes_pure trivial).le (by omega)

end Hkdf

namespace Sha2
variable {H : HashFunction} {φ : H.State → Nat} {W : H.State → Prop} (hH : Work H φ W)
include hH

/-- The digest of a message given in parts. -/
theorem parts_takes (parts : List Bytes) (out : Bytes) :
    Takes (8 * (parts.map List.length).sum + 17 * parts.length + 1511) (fun t => t.length ≤ 64)
      (do let s ← loop H.update parts H.default; H.writeDigest s out) := by
  have h1 := within_loop_sum (φ := φ) (P := W) (Q := fun _ => True) (c := fun x : Bytes => 8 * x.length + 16)
    (fun s x hs _ => (hH.update s x hs).le (by omega)) parts H.default (fun _ _ => trivial) hH.default.2
  rw [hH.default.1] at h1
  refine (h1.bind (k := 1510) (ψ := fun _ => 0) fun s hs => (hH.writeDigest s out hs).le (by omega)).le ?_
  have : (parts.map fun x => 8 * x.length + 16).sum = 8 * (parts.map List.length).sum + 16 * parts.length := by
    clear h1
    induction parts with
    | nil => rfl
    | cons x xs ih =>
      simp only [List.map_cons, List.sum_cons, List.length_cons, ih]
      omega
  omega

theorem wrapper_takes (x : Bytes) : Takes (8 * x.length + 1526) (fun t => t.length ≤ 64) (wrapper H x) := by
  have h1 := hH.update H.default x hH.default.2
  rw [hH.default.1] at h1
  exact (h1.bind (k := 1510) (ψ := fun _ => 0) fun s hs => (hH.writeDigest s _ hs).le (by omega)).le (by omega)

end Sha2
end CryptoPure.Leak
