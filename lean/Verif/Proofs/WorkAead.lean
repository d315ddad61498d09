import Verif.Proofs.WorkHash
import Verif.Proofs.LeakGcm
import Verif.Proofs.LeakPoly

/-! How many events the recorded AES-GCM, ChaCha20 and ChaCha20-Poly1305 functions have. -/

namespace CryptoPure.Leak

theorem zip_le_left {α β : Type} (x : List α) (y : List β) {n : Nat} (h : x.length ≤ n) : (x.zip y).length ≤ n := by
  rw [List.length_zip]
  omega

/-- A loop that writes one element in each iteration and does nothing else. -/
theorem each_pure_takes {α β : Type} (g : α → β) (l : List α) {n : Nat} (h : l.length ≤ n) :
    Takes (n + 1) (fun r => r.length ≤ n) (each (fun x => (Pure.pure (g x) : L β)) l) :=
  ((takes_each_le (k := 0) (P := fun _ => True) (fun _ => takes_done trivial) l h).mono fun _ hr =>
    ⟨Nat.le_refl _, by omega⟩).le (by omega)

namespace Util

theorem verify16_takes (x y : Bytes) (hx : x.length ≤ 16) : Takes 19 (fun _ => True) (verify16 x y) := by
  unfold verify16 verifyInner
  refine .cond (fun _ => ?_) fun _ => takes_done trivial
  refine .step (n := 18) (P := fun _ => True) ?_ fun _ _ => takes_done trivial
  refine .step (takes_check _) fun _ _ => ?_
  exact takes_loop (n := 16) (k := 0) (P := fun _ => True) (Q := fun _ => True) (fun _ _ _ _ => takes_done trivial) _ _
    (fun _ _ => trivial) trivial (zip_le_left _ _ hx)

end Util

namespace Aes
open Model.Aes (KeyExp)

theorem sBox_takes (n : U8) : Takes 18 (fun _ => True) (sBox n) := by
  have h : ∀ (x : U8) (b : List U8), b.length = 8 → Takes 9 (fun _ => True) (g256Newbasis x b) := by
    intro x b hb
    unfold g256Newbasis
    refine .step (takes_loop (n := 8) (k := 0) (P := fun _ => True) (Q := fun _ => True) (fun _ _ _ _ => takes_done trivial) _ _
      (fun _ _ => trivial) trivial (by rw [List.length_reverse]; omega)) fun _ _ => takes_done trivial
  unfold sBox
  refine .step (h _ _ rfl) fun _ _ => ?_
  exact .step (h _ _ rfl) fun _ _ => takes_done trivial

theorem subBytes_takes (s : Bytes) {n : Nat} (h : s.length ≤ n) :
    Takes (n * 19 + 1) (fun r => r.length ≤ n) (subBytes s) :=
  (takes_each_le (k := 18) (P := fun _ => True) sBox_takes s h).mono fun _ hr => ⟨Nat.le_refl _, by omega⟩

theorem mixColumns_takes (s : Bytes) (h : s.length ≤ 16) : Takes 5 (fun r => r.length ≤ 16) (mixColumns s) := by
  unfold mixColumns
  have hc : (chunks 4 s).length ≤ 4 := by
    rw [chunks_length (by omega)]
    omega
  refine .step (takes_each_le (k := 0) (P := fun c : Bytes => c.length ≤ 4) (fun c => takes_done (a := Model.Aes.mixColumn c) (Nat.le_refl 4)) _ hc) fun cs hcs => ?_
  refine takes_done ?_
  have := flatten_small cs hcs.2
  omega

theorem addRoundKey_takes (k s : Bytes) (r : Nat) (h : s.length ≤ 16) :
    Takes 19 (fun r => r.length ≤ 16) (addRoundKey k s r) := by
  unfold addRoundKey
  refine .step (takes_slice _ _ _) fun _ _ => ?_
  exact each_pure_takes _ _ (zip_le_left _ _ h)

theorem permute_takes (nk : Nat) (hnk : nk ≤ 8) (k s : Bytes) (h : s.length ≤ 16) :
    Takes 4700 (fun r => r.length ≤ 16) (permute nk k s) := by
  unfold permute
  refine .step (addRoundKey_takes k s 0 h) fun s h => ?_
  refine .step (takes_loop (n := 13) (k := 329) (P := fun s : Bytes => s.length ≤ 16) (Q := fun _ => True) (fun s i hs _ => ?_) _ s
    (fun _ _ => trivial) h (by rw [List.length_range']; omega)) fun s h => ?_
  · refine .step (subBytes_takes s hs) fun s hs => ?_
    refine .step (mixColumns_takes _ (by rw [shiftRows_length]; exact hs)) fun s hs => ?_
    exact (addRoundKey_takes k s i hs).le (by omega)
  · refine .step (subBytes_takes s h) fun s hs => ?_
    exact (addRoundKey_takes k _ _ (by rw [shiftRows_length]; exact hs)).le (by omega)

theorem keyExpansion_takes (nk : Nat) (hnk : nk ≤ 8) (key : Bytes) : Takes 6000 (fun _ => True) (keyExpansion nk key) := by
  unfold keyExpansion
  refine .step (takes_check _) fun _ _ => ?_
  refine .step (takes_copy _ _ _) fun _ _ => ?_
  refine .step (takes_loop (n := 60) (k := 98) (P := fun _ => True) (Q := fun _ => True) (fun s i _ _ => ?_) _ _
    (fun _ _ => trivial) trivial (by rw [List.length_range']; omega)) fun _ _ => takes_done trivial
  unfold keyExpStep
  refine .step (takes_slice _ _ _) fun temp ht => ?_
  have ht : temp.length ≤ 4 := by
    rw [ht, List.length_take]
    omega
  refine .step (n := 79) (P := fun _ => True) ?_ fun r _ => ?_
  · refine .cond (fun _ => ?_) fun _ => .cond (fun _ => ?_) fun _ => takes_done trivial
    · exact .step (subBytes_takes _ (n := 4) (by rw [rotateLeft_length]; exact ht)) fun _ _ => takes_done trivial
    · exact .step (subBytes_takes _ ht) fun _ _ => takes_done trivial
  · refine .step (n := 17) (P := fun _ => True) ?_ fun _ _ => takes_done trivial
    exact takes_loop (n := 4) (k := 3) (P := fun _ => True) (Q := fun _ => True) (fun s i _ _ =>
      .step (takes_get _ _ _) fun _ _ => .step (takes_get _ _ _) fun _ _ =>
        ((takes_put _ _ _).mono fun _ _ => ⟨Nat.le_refl _, trivial⟩)) _ _ (fun _ _ => trivial) trivial (by decide)

end Aes

namespace GHash

theorem polyProcess_takes (f : Model.GHash.PolyFunction) (x : Bytes) : Takes 129 (fun _ => True) (polyProcess f x) := by
  unfold polyProcess
  refine .step (takes_loop (n := 128) (k := 0) (P := fun _ => True) (Q := fun _ => True) (fun _ _ _ _ => takes_done trivial) _ _
    (fun _ _ => trivial) trivial (by simp)) fun _ _ => takes_done trivial

theorem chunksLoop_takes (x : Bytes) (f : Model.GHash.PolyFunction) :
    Takes ((x.length / 16 + 1) * 133 + 1) (fun _ => True) (loop processChunk (chunks 16 x) f) := by
  refine takes_loop (k := 132) (P := fun _ => True) (Q := fun _ => True) (fun f c _ _ => ?_) _ _
    (fun _ _ => trivial) trivial (chunks_count (by omega) x)
  unfold processChunk
  refine .cond (fun _ => ?_) fun _ => (polyProcess_takes _ _).le (by omega)
  exact .step (takes_copy _ _ _) fun _ _ => (polyProcess_takes _ _).le (by omega)

theorem ghash_takes (key data ct : Bytes) :
    Takes ((data.length / 16 + ct.length / 16) * 133 + 400) (fun _ => True) (ghash key data ct) := by
  unfold ghash
  refine .step (chunksLoop_takes data _) fun _ _ => ?_
  refine .step (chunksLoop_takes ct _) fun _ _ => ?_
  exact .step (polyProcess_takes _ _) fun _ _ => takes_done trivial

end GHash

namespace Gcm
open Aes (BlockCipher)

/-- A block cipher of at most `c` events per block. -/
def Cheap (E : BlockCipher) (c : Nat) : Prop :=
  ∀ st b, b.length ≤ 16 → Takes c (fun r => r.length ≤ 16) (E.permute st b)

variable {E : BlockCipher} {c : Nat} (hE : Cheap E c)
include hE

theorem block_takes (st : E.State) (ctr : Bytes) (i : U32) (h : ctr.length ≤ 16) :
    Takes c (fun r => r.1.length ≤ 16 ∧ r.2.length ≤ 16) (block E st ctr i) := by
  have hl : (copyAt ctr 12 (toBE 4 i.toNat)).length ≤ 16 := by
    have : (toBE 4 i.toNat).length = 4 := Sha2.toBE_length _ _
    simp only [copyAt, List.length_append, List.length_take, List.length_drop, this]
    omega
  unfold block
  exact .step (hE st _ hl) fun b hb => takes_done ⟨hb, hl⟩

theorem processLoop_takes (st : E.State) : ∀ (l : List (Bytes × Bytes)) (ctr : Bytes) (i : U32), ctr.length ≤ 16 →
    Takes (l.length * (c + 18) + 1) (fun _ => True) (processLoop E st ctr i l)
  | [], ctr, i, h => by
    unfold processLoop
    exact .step (takes_branch _) fun _ _ => takes_done trivial
  | (x, y) :: l, ctr, i, h => by
    unfold processLoop
    rw [List.length_cons, Nat.succ_mul]
    refine .step (takes_branch _) fun _ _ => ?_
    refine .step (block_takes hE st ctr i h) fun r hr => ?_
    refine .step (each_pure_takes _ _ (zip_le_left r.1 _ hr.1)) fun o _ => ?_
    exact .step (processLoop_takes st l r.2 (i + 1) hr.2) fun _ _ => takes_done trivial

theorem process_takes (st : E.State) (ctr input output : Bytes) (h : ctr.length ≤ 16) :
    Takes ((input.length / 16 + 1) * (c + 18) + 1) (fun _ => True) (process E st ctr input output) := by
  unfold process
  refine .step (n := (input.length / 16 + 1) * (c + 18) + 1) ((processLoop_takes hE st _ ctr 2 h).le ?_) fun _ _ => takes_done trivial
  refine Nat.succ_le_succ (Nat.mul_le_mul_right _ ?_)
  exact zip_le_left _ _ (chunks_count (by omega) _)

theorem tag_takes (st : E.State) (ct data ctr : Bytes) (h : ctr.length ≤ 16) :
    Takes (2 * c + (data.length / 16 + ct.length / 16) * 133 + 417) (fun t => t.length ≤ 16) (tag E st ct data ctr) := by
  unfold tag
  refine .step (block_takes hE st ctr 1 h) fun r hr => ?_
  refine .step (hE st (zeros 16) (by simp)) fun k _ => ?_
  refine .step (GHash.ghash_takes k data ct) fun g _ => ?_
  exact (each_pure_takes _ _ (zip_le_left r.1 g hr.1)).le (by omega)

omit hE in
theorem checkBounds_takes (a b n d : Bytes) :
    Takes 4 (fun _ => n.length = 12 ∧ a.length = b.length) (checkBounds a b n d) := by
  unfold checkBounds
  refine .step (takes_check _) fun _ h1 => ?_
  refine .step (takes_check _) fun _ h2 => ?_
  refine .step (takes_check _) fun _ _ => ?_
  refine ((takes_check _).mono fun _ _ => ⟨Nat.le_refl _, ?_⟩).le (by omega)
  rw [beq_iff_eq] at h1 h2
  exact ⟨h1.symm, h2⟩

omit hE in
theorem ctr_len {nonce ctr : Bytes} (hn : nonce.length = 12) (h : ctr = copyAt (zeros 16) 0 nonce) : ctr.length ≤ 16 := by
  have hz : (zeros 16).length = 16 := zeros_length _
  rw [h, copyAt_length (by omega)]
  omega

omit hE in
theorem fst_flatten : ∀ (l l' : List Bytes), ((l.zip l').map Prod.fst).flatten.length ≤ l.flatten.length
  | [], l' => by simp
  | a :: l, [] => by simp
  | a :: l, b :: l' => by
    have := fst_flatten l l'
    simp only [List.zip_cons_cons, List.map_cons, List.flatten_cons, List.length_append]
    omega

omit hE in
theorem blocks_same (n c : Nat) : (n + 1) * (c + 18) = n * (c + 18) + (c + 18) := Nat.succ_mul _ _

theorem encrypt_takes (st : E.State) (input nonce data output : Bytes) :
    Takes ((input.length / 16) * (c + 151) + (data.length / 16) * 133 + 3 * c + 600) (fun _ => True)
      (encrypt E st input nonce data output) := by
  unfold encrypt
  have e1 : (input.length / 16) * (c + 151) = (input.length / 16) * (c + 18) + (input.length / 16) * 133 := by
    rw [← Nat.mul_add]
  have e2 := Nat.add_mul (data.length / 16) (input.length / 16) 133
  have e3 := blocks_same (input.length / 16) c
  refine .step (checkBounds_takes _ _ _ _) fun _ hb => ?_
  refine .step (takes_copy _ _ _) fun ctr hc => ?_
  have hc := ctr_len hb.1 hc
  have hp := (process_takes hE st ctr input output hc).and (Q := fun o => o.length ≤ input.length) fun o ho => by
    have hlen : ∀ (l : List (Bytes × Bytes)) (ctr : Bytes) (i : U32) (r : List Bytes),
        (processLoop E st ctr i l).val = some r → r.flatten.length ≤ (l.map Prod.fst).flatten.length := by
      intro l
      induction l with
      | nil => intro ctr i r h; cases h; simp
      | cons p l ih =>
        obtain ⟨x, y⟩ := p
        intro ctr i r h
        unfold processLoop at h
        simp only [val_bind, val_branch, Option.bind_some] at h
        obtain ⟨b, hb, h⟩ := Option.bind_eq_some_iff.1 h
        rw [val_each_pure, Option.bind_some] at h
        obtain ⟨rest, hr, h⟩ := Option.bind_eq_some_iff.1 h
        cases h
        have := ih _ _ _ hr
        simp only [List.flatten_cons, List.length_append, List.length_map, List.map_cons, List.length_zip]
        omega
    unfold process at ho
    rw [val_bind] at ho
    obtain ⟨r, hr, ho⟩ := Option.bind_eq_some_iff.1 ho
    cases ho
    refine Nat.le_trans (hlen _ _ _ _ hr) ?_
    refine Nat.le_trans (fst_flatten _ _) ?_
    rw [chunks_flatten (by omega)]
  refine .step hp fun o ho => ?_
  have hd : o.length / 16 ≤ input.length / 16 := Nat.div_le_div_right ho.2
  have e4 : (data.length / 16 + o.length / 16) * 133 ≤ (data.length / 16 + input.length / 16) * 133 :=
    Nat.mul_le_mul_right _ (by omega)
  refine .step (tag_takes hE st o data ctr hc) (fun t _ => takes_done trivial) ?_
  omega

theorem decrypt_takes (st : E.State) (input nonce data t output : Bytes) :
    Takes ((input.length / 16) * (c + 151) + (data.length / 16) * 133 + 3 * c + 600) (fun _ => True)
      (decrypt E st input nonce data t output) := by
  unfold decrypt
  have e1 : (input.length / 16) * (c + 151) = (input.length / 16) * (c + 18) + (input.length / 16) * 133 := by
    rw [← Nat.mul_add]
  have e2 := Nat.add_mul (data.length / 16) (input.length / 16) 133
  have e3 := blocks_same (input.length / 16) c
  refine .step (checkBounds_takes _ _ _ _) fun _ hb => ?_
  refine .step (takes_copy _ _ _) fun ctr hc => ?_
  have hc := ctr_len hb.1 hc
  refine .step (tag_takes hE st input data ctr hc) fun e he => ?_
  refine .step (Util.verify16_takes e t he) fun ok _ => ?_
  refine .cond (fun _ => ?_) fun _ => takes_done trivial
  exact .step (process_takes hE st ctr input output hc) fun _ _ => takes_done trivial

end Gcm

namespace ChaCha20
open Model.ChaCha20 (Stream innerBlock)

theorem readWords_takes (b : Bytes) {n : Nat} (h : b.length ≤ 4 * n) :
    Takes (n + 1) (fun r => r.length ≤ n) (readWords b) := by
  unfold readWords
  refine each_pure_takes _ _ ?_
  rw [chunks_length (by omega)]
  omega

theorem new_takes (key nonce : Bytes) : Takes 15 (fun c => c.length ≤ 16) (new key nonce) := by
  unfold new
  refine .step (takes_check _) fun _ h1 => ?_
  refine .step (takes_check _) fun _ h2 => ?_
  rw [beq_iff_eq] at h1 h2
  refine .step (readWords_takes key (n := 8) (by omega)) fun k hk => ?_
  refine .step (readWords_takes nonce (n := 3) (by omega)) fun n hn => ?_
  refine takes_done ?_
  simp only [List.length_append, List.length_cons, List.length_nil]
  omega

theorem block_takes (c : List U32) (i : U32) (hc : c.length ≤ 16) : Takes 45 (fun b => b.length ≤ 64) (block c i) := by
  unfold block transformState serializeBlock
  refine .step (n := 28) (P := fun s : List U32 => s.length ≤ 16) ?_ fun s hs => ?_
  · refine .step (takes_loop (n := 10) (k := 0) (P := fun s : List U32 => s.length ≤ 16) (Q := fun _ => True)
      (fun s _ hs _ => takes_done (by rw [innerBlock_length]; exact hs)) _ _ (fun _ _ => trivial)
      (by rw [List.length_set]; exact hc) (by simp)) fun s hs => ?_
    refine .step (each_pure_takes _ _ (zip_le_left s c hs)) fun s hs => ?_
    exact takes_done (by rw [List.length_set]; exact hs)
  · refine .step (takes_each_le (n := 16) (k := 0) (P := fun b : Bytes => b.length ≤ 4)
      (fun x => takes_done (Nat.le_of_eq (toLE_length _ _))) s hs) fun cs hcs => ?_
    refine takes_done ?_
    have := flatten_small cs hcs.2
    omega

/-- The state holds at most 16 words. -/
def SmallS (s : Stream) : Prop := s.chacha20.length ≤ 16

theorem stream_new_takes (key nonce : Bytes) : Takes 60 SmallS (Stream.new key nonce) := by
  unfold Stream.new
  refine .step (new_takes key nonce) fun c hc => ?_
  exact .step (block_takes c 0 hc) fun b _ => takes_done hc

theorem stream_next_takes (s : Stream) (hs : SmallS s) : Takes 47 (fun r => SmallS r.2) (Stream.next s) := by
  unfold Stream.next
  refine .step (n := 46) (P := SmallS) ?_ fun s hs => ?_
  · refine .cond (fun _ => ?_) fun _ => takes_done hs
    exact .step (block_takes _ _ hs) fun b _ => takes_done hs
  · exact .step (takes_index _ _) fun _ _ => takes_done hs

theorem processLoop_takes : ∀ (x : Bytes) (s : Stream), SmallS s →
    Takes (48 * x.length + 1) (fun r => SmallS r.2) (Stream.processLoop s x)
  | [], s, hs => by
    unfold Stream.processLoop
    exact .step (takes_branch _) fun _ _ => takes_done hs
  | z :: zs, s, hs => by
    unfold Stream.processLoop
    rw [List.length_cons]
    refine .step (takes_branch _) fun _ _ => ?_
    refine .step (stream_next_takes s hs) fun r hr => ?_
    exact .step (processLoop_takes zs r.2 hr) fun r hr => takes_done hr

theorem process_takes (s : Stream) (x y : Bytes) (hs : SmallS s) :
    Takes (48 * x.length + 2) (fun r => SmallS r.2) (Stream.process s x y) := by
  unfold Stream.process
  exact .step (takes_check _) fun _ _ => (processLoop_takes x s hs).le (by omega)

end ChaCha20

namespace Poly1305
open Model.Poly1305 (PolyFunction)

theorem u32_takes (x : Nat) : Takes 0 (fun _ => True) (u32 x) := (takes_op _).mono fun _ _ => ⟨Nat.le_refl _, trivial⟩

theorem addLoop_takes : ∀ (l : List (Nat × U8)) (u : Nat),
    Takes (l.length + 1) (fun r => r.1.length = l.length) (addLoop u l)
  | [], u => by
    unfold addLoop
    exact .step (takes_branch _) fun _ _ => takes_done rfl
  | (a, b) :: l, u => by
    unfold addLoop
    rw [List.length_cons]
    refine .step (takes_branch _) fun _ _ => ?_
    refine .step (u32_takes _) fun t _ => ?_
    refine .step (u32_takes _) fun u _ => ?_
    exact .step (addLoop_takes l _) fun r hr => takes_done (by simp [hr])

theorem add_takes (h : List Nat) (c : Bytes) (b : Nat) (hh : h.length ≤ 17) :
    Takes 18 (fun r => r.length ≤ 17) (add h c b) := by
  unfold add
  have hz := zip_le_left h c hh
  refine .step (n := 18) (P := fun r : List Nat × Nat => r.1.length ≤ h.length)
    (((addLoop_takes (h.zip c) 0).mono fun r hr => ⟨Nat.le_refl _, by rw [hr, List.length_zip]; omega⟩).le (by omega)) fun r hr => ?_
  refine .step (u32_takes _) fun t _ => ?_
  refine .step (u32_takes _) fun u _ => ?_
  refine takes_done ?_
  simp only [List.length_set, List.length_append, List.length_drop]
  omega

theorem carryLoop_takes : ∀ (l : List Nat) (u : Nat), Takes (l.length + 1) (fun r => r.1.length = l.length) (carryLoop u l)
  | [], u => by
    unfold carryLoop
    exact .step (takes_branch _) fun _ _ => takes_done rfl
  | a :: l, u => by
    unfold carryLoop
    rw [List.length_cons]
    refine .step (takes_branch _) fun _ _ => ?_
    refine .step (u32_takes _) fun u _ => ?_
    exact .step (carryLoop_takes l _) fun r hr => takes_done (by simp [hr])

theorem squeeze_takes (h : List Nat) : Takes 34 (fun r => r.length ≤ 17) (squeeze h) := by
  unfold squeeze
  refine .step (n := 17) (P := fun r : List Nat × Nat => r.1.length ≤ 16)
    (((carryLoop_takes (h.take 16) 0).mono fun r hr => ⟨Nat.le_refl _, by rw [hr, List.length_take]; omega⟩).le
      (by rw [List.length_take]; omega)) fun r hr => ?_
  refine .step (u32_takes _) fun u _ => ?_
  refine .step (u32_takes _) fun u _ => ?_
  refine .step (n := 17) (P := fun r : List Nat × Nat => r.1.length ≤ 16)
    (((carryLoop_takes r.1 u).mono fun r' hr' => ⟨Nat.le_refl _, by omega⟩).le (by omega)) fun r hr => ?_
  refine .step (u32_takes _) fun u _ => ?_
  refine takes_done ?_
  simp only [List.length_append, List.length_cons, List.length_nil]
  omega

theorem mulRow_takes (h : List Nat) (r : Bytes) (i : Nat) (hi : i < 17) : Takes 53 (fun _ => True) (mulRow h r i) := by
  unfold mulRow
  have h1 := Within.seq (takes_loop (k := 2) (n := i + 1) (P := fun _ => True) (Q := fun _ => True)
    (f := fun u j => do
      let hj ← get h j 0
      let rj ← get r (i - j) 0
      let p ← u32 (hj * rj.toNat)
      u32 (u + p)) (fun u j _ _ => .step (takes_get _ _ _) fun _ _ => .step (takes_get _ _ _) fun _ _ =>
        .step (u32_takes _) fun _ _ => u32_takes _) (List.range' 0 (i + 1)) 0 (fun _ _ => trivial) trivial (by simp)) fun u _ =>
    takes_loop (k := 2) (n := 17 - (i + 1)) (P := fun _ => True) (Q := fun _ => True)
      (f := fun u j => do
        let hj ← get h j 0
        let q ← u32 (320 * hj)
        let rj ← get r (i + 17 - j) 0
        let p ← u32 (q * rj.toNat)
        u32 (u + p)) (fun u j _ _ => .step (takes_get _ _ _) fun _ _ => .step (u32_takes _) fun _ _ =>
          .step (takes_get _ _ _) fun _ _ => .step (u32_takes _) fun _ _ => u32_takes _)
      (List.range' (i + 1) (17 - (i + 1))) u (fun _ _ => trivial) trivial (by simp)
  exact h1.le (by omega)

theorem mulmod_takes (h : List Nat) (r : Bytes) : Takes 953 (fun r => r.length ≤ 17) (mulmod h r) := by
  unfold mulmod
  refine .step ((takes_each (k := 53) (P := fun _ => True) (Q := fun i => i < 17) (fun i hi => mulRow_takes h r i hi)
    (List.range 17) (fun i hi => List.mem_range.1 hi)).le (m := 919) (by simp)) fun hr _ => ?_
  exact (squeeze_takes hr).le (by omega)

/-- At most 17 limbs. -/
def SmallP (f : PolyFunction) : Prop := f.h.length ≤ 17

theorem polyProcess_takes (f : PolyFunction) (x : Bytes) (hf : SmallP f) : Takes 971 SmallP (polyProcess f x) := by
  unfold polyProcess
  refine .step (add_takes f.h x 1 hf) fun h hh => ?_
  exact .step (mulmod_takes h f.r) fun h hh => takes_done hh

theorem value_takes (f : PolyFunction) (hf : SmallP f) : Takes 71 (fun t => t.length ≤ 16) (value f) := by
  unfold value freeze
  refine .step (n := 36) (P := fun h : List Nat => h.length ≤ 17) ?_ fun h hh => ?_
  · refine .step (add_takes f.h _ _ hf) fun h' hh' => ?_
    exact each_pure_takes _ _ (zip_le_left h' _ hh')
  · refine .step (add_takes h _ _ hh) fun h hh => ?_
    exact each_pure_takes _ _ (by rw [List.length_take]; omega)

theorem chunksLoop_takes (x : Bytes) (f : PolyFunction) (hf : SmallP f) :
    Takes ((x.length / 16 + 1) * 975 + 1) SmallP (loop processChunk (chunks 16 x) f) := by
  refine takes_loop (k := 974) (P := SmallP) (Q := fun _ => True) (fun f c hf _ => ?_) _ _
    (fun _ _ => trivial) hf (chunks_count (by omega) x)
  unfold processChunk
  refine .cond (fun _ => ?_) fun _ => (polyProcess_takes _ _ hf).le (by omega)
  exact .step (takes_copy _ _ _) fun _ _ => (polyProcess_takes _ _ hf).le (by omega)

theorem poly1305_takes (key data ct : Bytes) :
    Takes ((data.length / 16 + ct.length / 16) * 975 + 3000) (fun t => t.length ≤ 16) (poly1305 key data ct) := by
  unfold poly1305
  refine .step (chunksLoop_takes data _ (by simp [SmallP, PolyFunction.new])) fun f hf => ?_
  refine .step (chunksLoop_takes ct f hf) fun f hf => ?_
  refine .step (polyProcess_takes f _ hf) fun f hf => ?_
  exact (value_takes f hf).le (by omega)

theorem tag_takes (c : List U32) (ct data : Bytes) (hc : c.length ≤ 16) :
    Takes ((data.length / 16 + ct.length / 16) * 975 + 3045) (fun t => t.length ≤ 16) (tag c ct data) := by
  unfold tag
  refine .step (ChaCha20.block_takes c 0 hc) fun b _ => ?_
  exact (poly1305_takes _ data ct).le (by omega)

theorem processLoop_takes (c : List U32) (hc : c.length ≤ 16) : ∀ (l : List (Bytes × Bytes)) (i : U32),
    Takes (l.length * 111 + 1) (fun _ => True) (processLoop c i l)
  | [], i => by
    unfold processLoop
    exact .step (takes_branch _) fun _ _ => takes_done trivial
  | (x, y) :: l, i => by
    unfold processLoop
    rw [List.length_cons, Nat.succ_mul]
    refine .step (takes_branch _) fun _ _ => ?_
    refine .step (ChaCha20.block_takes c i hc) fun b hb => ?_
    refine .step (each_pure_takes _ _ (zip_le_left b _ hb)) fun o _ => ?_
    exact .step (processLoop_takes c hc l (i + 1)) fun _ _ => takes_done trivial

theorem process_takes (c : List U32) (hc : c.length ≤ 16) (x y : Bytes) :
    Takes ((x.length / 64 + 1) * 111 + 1) (fun _ => True) (process c x y) := by
  unfold process
  refine .step (n := (x.length / 64 + 1) * 111 + 1) ((processLoop_takes c hc _ 1).le ?_) fun _ _ => takes_done trivial
  refine Nat.succ_le_succ (Nat.mul_le_mul_right _ ?_)
  exact zip_le_left _ _ (chunks_count (by omega) _)

theorem process_len (c : List U32) (x y o : Bytes) (h : (process c x y).val = some o) : o.length ≤ x.length := by
  have hlen : ∀ (l : List (Bytes × Bytes)) (i : U32) (r : List Bytes),
      (processLoop c i l).val = some r → r.flatten.length ≤ (l.map Prod.fst).flatten.length := by
    intro l
    induction l with
    | nil => intro i r h; cases h; simp
    | cons p l ih =>
      obtain ⟨x, y⟩ := p
      intro i r h
      unfold processLoop at h
      simp only [val_bind, val_branch, Option.bind_some] at h
      obtain ⟨b, hb, h⟩ := Option.bind_eq_some_iff.1 h
      rw [val_each_pure, Option.bind_some] at h
      obtain ⟨rest, hr, h⟩ := Option.bind_eq_some_iff.1 h
      cases h
      have := ih _ _ hr
      simp only [List.flatten_cons, List.length_append, List.length_map, List.map_cons, List.length_zip]
      omega
  unfold process at h
  rw [val_bind] at h
  obtain ⟨r, hr, h⟩ := Option.bind_eq_some_iff.1 h
  cases h
  refine Nat.le_trans (hlen _ _ _ hr) ?_
  have := Gcm.fst_flatten (chunks 64 x) (chunks 64 y)
  rwa [chunks_flatten (by omega)] at this

set_option maxRecDepth 20000 in
theorem encrypt_takes (key input nonce data output : Bytes) :
    Takes ((data.length / 16 + input.length / 16) * 975 + (input.length / 64) * 111 + 3200) (fun _ => True)
      (encrypt key input nonce data output) := by
  generalize hN : (data.length / 16 + input.length / 16) * 975 + (input.length / 64) * 111 + 3200 = N
  unfold encrypt
  refine .step (takes_check _) fun _ _ => ?_
  refine .step (ChaCha20.new_takes key nonce) fun c hc => ?_
  refine .step ((process_takes c hc input output).and fun o ho => process_len c input output o ho) fun o ho => ?_
  have hd : o.length / 16 ≤ input.length / 16 := Nat.div_le_div_right ho.2
  have e4 : (data.length / 16 + o.length / 16) * 975 ≤ (data.length / 16 + input.length / 16) * 975 :=
    Nat.mul_le_mul_right _ (by omega)
  refine .step (tag_takes c o data hc) (fun _ _ => takes_done trivial) ?_
  omega

theorem decrypt_takes (key input nonce data t output : Bytes) :
    Takes ((data.length / 16 + input.length / 16) * 975 + (input.length / 64) * 111 + 3200) (fun _ => True)
      (decrypt key input nonce data t output) := by
  generalize hN : (data.length / 16 + input.length / 16) * 975 + (input.length / 64) * 111 + 3200 = N
  unfold decrypt
  refine .step (takes_check _) fun _ _ => ?_
  refine .step (ChaCha20.new_takes key nonce) fun c hc => ?_
  refine .step (tag_takes c input data hc) fun e he => ?_
  refine .step (Util.verify16_takes e t he) fun ok _ => ?_
  refine .cond (fun _ => ?_) fun _ => takes_done trivial
  exact .step (process_takes c hc input output) fun _ _ => takes_done trivial

end Poly1305
end CryptoPure.Leak
