import Verif.Proofs.LeakAes

/-! The recorded GHASH and GCM compute what the model computes; two runs on inputs of equal lengths are observed alike. -/

namespace CryptoPure.Leak

theorem addC_release {w : Nat} (x y : BitVec w) : addC .release x y = some (x + y) := by
  unfold addC; split <;> rfl

theorem mulC_release {w : Nat} (x y : BitVec w) : mulC .release x y = some (x * y) := by
  unfold mulC; split <;> rfl

theorem rangeNext_release {w : Nat} (x : BitVec w) : rangeNext .release x = some (x, x + 1) := by
  unfold rangeNext; rw [addC_release]; rfl

namespace GHash
open Model.GHash (PolyFunction mulStep mulLoop)

theorem fold_mulLoop (n : Nat) : ∀ p, (List.range n).foldl (fun p _ => mulStep p) p = mulLoop n p := by
  have h : ∀ (l : List Nat) p, l.foldl (fun p _ => mulStep p) p = mulLoop l.length p := by
    intro l
    induction l with
    | nil => intro p; rfl
    | cons a l ih => intro p; exact ih _
  intro p
  rw [h, List.length_range]

theorem polyProcess_val (s : PolyFunction) (input : Bytes) : (polyProcess s input).val = some (s.process input) := by
  unfold polyProcess PolyFunction.process
  rw [val_bind, val_loop_total _ (fun p _ => mulStep p) (fun _ _ => rfl), Option.bind_some, fold_mulLoop]
  rfl

theorem processChunk_val (f : PolyFunction) (c : Bytes) : (processChunk f c).val = some (Model.GHash.processChunk f c) := by
  unfold processChunk Model.GHash.processChunk
  rw [val_bind, val_branch, Option.bind_some, val_ite, val_bind, val_copy, Option.bind_some, polyProcess_val, polyProcess_val]
  by_cases h : c.length < 16 <;> simp [h]

theorem ghash_val (key data ct : Bytes) : (ghash key data ct).val = Model.GHash.ghash .release key data ct := by
  unfold ghash Model.GHash.ghash Model.GHash.GHash.update Model.GHash.GHash.new Model.GHash.GHash.writeTag
  rw [val_bind, val_loop_total _ _ processChunk_val, Option.bind_some, val_bind, val_loop_total _ _ processChunk_val,
    Option.bind_some, val_bind, polyProcess_val, Option.bind_some]
  simp only [addC_release, mulC_release, Option.bind_eq_bind, Option.bind_some, Model.GHash.GHash.process]
  simp

theorem polyProcess_alike (s t : PolyFunction) (x y : Bytes) :
    Alike (fun _ _ => True) (polyProcess s x) (polyProcess t y) :=
  .bind (Alike.loop (R := fun _ _ => True) (fun _ _ _ _ _ _ => .pure trivial) _ _ _ _ (forall₂_eq _) trivial)
    fun _ _ _ => .pure trivial

theorem processChunk_alike (s t : PolyFunction) (x y : Bytes) (h : x.length = y.length) :
    Alike (fun _ _ => True) (processChunk s x) (processChunk t y) :=
  .cond (by rw [h]) (fun _ => .bind (.copy rfl h) fun _ _ _ => polyProcess_alike _ _ _ _)
    (fun _ => polyProcess_alike _ _ _ _)

theorem value_length (f : PolyFunction) : f.value.length = 16 := by simp [PolyFunction.value, toBE, toLE]

theorem ghash_alike (key data ct key' data' ct' : Bytes) (hd : data.length = data'.length) (hc : ct.length = ct'.length) :
    Alike SameLen (ghash key data ct) (ghash key' data' ct') :=
  .bind (Alike.loop (R := fun _ _ => True) (fun s t x y _ h => processChunk_alike s t x y h) _ _ _ _
    (forall₂_chunks 16 _ _ hd) trivial) fun _ _ _ =>
  .bind (Alike.loop (R := fun _ _ => True) (fun s t x y _ h => processChunk_alike s t x y h) _ _ _ _
    (forall₂_chunks 16 _ _ hc) trivial) fun _ _ _ =>
  .bind (polyProcess_alike _ _ _ _) fun _ _ _ => .pure (by rw [SameLen, value_length, value_length])

end GHash

namespace Gcm
open Aes (BlockCipher implCipher)

/-- What the recorded cipher `E` shares with the modelled cipher `M`. -/
structure Records (E : BlockCipher) (M : Model.Aes.BlockCipher) (f : E.State → M.State) : Prop where
  permute : ∀ st x, (E.permute st x).val = some (M.permute (f st) x)

attribute [local irreducible] Aes.permute Model.Aes.permute in
theorem records_aes (nk : Nat) : Records (implCipher nk) (Model.Aes.implCipher nk) (fun st => st) :=
  ⟨fun st x => Aes.permute_val nk st x⟩

variable {E : BlockCipher} {M : Model.Aes.BlockCipher} {f : E.State → M.State}

theorem block_val (hE : Records E M f) (st : E.State) (ctr : Bytes) (i : U32) :
    (block E st ctr i).val = some (Model.Gcm.block M (f st) ctr i) := by
  unfold block Model.Gcm.block
  rw [val_bind, hE.permute]
  rfl

theorem processLoop_val (hE : Records E M f) (st : E.State) : ∀ (l : List (Bytes × Bytes)) (ctr : Bytes) (i : U32),
    (processLoop E st ctr i l).val = Model.Gcm.processLoop M .release (f st) ctr i l
  | [], ctr, i => by
    simp only [processLoop, Model.Gcm.processLoop, rangeNext_release]
    rfl
  | (inp, out) :: l, ctr, i => by
    simp only [processLoop, Model.Gcm.processLoop, rangeNext_release]
    rw [val_bind, val_branch, Option.bind_some, val_bind, block_val hE]
    simp only [Option.bind_some, val_bind, Option.bind_eq_bind,
      val_each_pure, processLoop_val hE st l, val_pure]
    rw [List.zip, List.map_zipWith]

theorem process_val (hE : Records E M f) (st : E.State) (ctr input output : Bytes) :
    (process E st ctr input output).val =
      Model.Gcm.process M .release (f st) ctr input output := by
  unfold process Model.Gcm.process
  rw [val_bind, processLoop_val hE]
  rfl

theorem tag_val (hE : Records E M f) (st : E.State) (ct data ctr : Bytes) :
    (tag E st ct data ctr).val = Model.Gcm.tag M .release (f st) ct data ctr := by
  unfold tag Model.Gcm.tag Model.Gcm.ghash
  rw [val_bind, block_val hE, Option.bind_some]
  dsimp only
  rw [val_bind, hE.permute, Option.bind_some, val_bind,
    GHash.ghash_val]
  congr 1
  funext h
  rw [val_each_total _ (fun p => p.1 ^^^ p.2) (fun _ => rfl), List.zip, List.map_zipWith]

theorem checkBounds_val (a b c d : Bytes) : (checkBounds a b c d).val = Model.Gcm.checkBounds a b c d := by
  unfold checkBounds Model.Gcm.checkBounds
  simp only [val_bind, val_check]
  rfl

theorem encrypt_val (hE : Records E M f) (st : E.State) (input nonce data output : Bytes) :
    (encrypt E st input nonce data output).val =
      Model.Gcm.encrypt M .release (f st) input nonce data output := by
  unfold encrypt Model.Gcm.encrypt Model.Gcm.counter
  rw [val_bind, checkBounds_val]
  congr 1
  funext _
  rw [val_bind, val_copy, Option.bind_some, val_bind, process_val hE]
  congr 1
  funext _
  rw [val_bind, tag_val hE]
  rfl

theorem decrypt_val (hE : Records E M f) (st : E.State) (input nonce data tag' output : Bytes) :
    (decrypt E st input nonce data tag' output).val =
      Model.Gcm.decrypt M .release (f st) input nonce data tag' output := by
  unfold decrypt Model.Gcm.decrypt Model.Gcm.counter
  rw [val_bind, checkBounds_val]
  congr 1
  funext _
  rw [val_bind, val_copy, Option.bind_some, val_bind, tag_val hE]
  congr 1
  funext e
  rw [val_bind, Util.verify16_val]
  congr 1
  funext ok
  rw [val_bind, val_branch, Option.bind_some, val_ite, val_bind, process_val hE]
  rfl

/-- A block cipher whose runs are observed alike on states related by `R` and blocks of equal length. -/
structure Steady (E : BlockCipher) (R : E.State → E.State → Prop) : Prop where
  permute : ∀ s t x y, R s t → x.length = y.length → Alike SameLen (E.permute s x) (E.permute t y)
  total : ∀ s x, ∃ y, (E.permute s x).val = some y

theorem steady_aes (nk : Nat) : Steady (implCipher nk) SameLen where
  permute s t x y := Aes.permute_alike nk s t x y
  total s x := ⟨_, Aes.permute_val nk s x⟩

variable {R : E.State → E.State → Prop}

theorem block_alike (hE : Steady E R) (s t : E.State) (c c' : Bytes) (i : U32) (hs : R s t) (h : c.length = c'.length) :
    Alike (fun p q => p.1.length = q.1.length ∧ p.2.length = q.2.length) (block E s c i) (block E t c' i) := by
  have hc : (copyAt c 12 (toBE 4 i.toNat)).length = (copyAt c' 12 (toBE 4 i.toNat)).length := by simp [copyAt, h]
  exact .bind (hE.permute s t _ _ hs hc) fun _ _ h => .pure ⟨h, hc⟩

theorem processLoop_alike (hE : Steady E R) (s t : E.State) (hs : R s t) :
    ∀ (l l' : List (Bytes × Bytes)) (c c' : Bytes) (i : U32),
      List.Forall₂ (fun p q => p.1.length = q.1.length ∧ p.2.length = q.2.length) l l' → c.length = c'.length →
      Alike (List.Forall₂ SameLen) (processLoop E s c i l) (processLoop E t c' i l')
  | [], [], _, _, _, _, _ => .bind (.branch rfl) fun _ _ _ => .pure .nil
  | (a, b) :: l, (a', b') :: l', c, c', i, .cons hp hl, hc => by
    refine .bind (.branch rfl) fun _ _ _ => ?_
    refine .bind (block_alike hE s t c c' i hs hc) ?_
    rintro ⟨k, c⟩ ⟨k', c'⟩ ⟨hk, hc⟩
    dsimp only at hk hc hp
    refine .bind (.each_len (fun _ _ => .pure trivial) (by simp [hk, hp.1, hp.2])) fun _ _ ho => ?_
    exact .bind (processLoop_alike hE s t hs l l' c c' (i + 1) hl hc) fun _ _ h => .pure (.cons ho h)

theorem forall₂_zip {α β γ δ : Type} {P : α → β → Prop} {Q : γ → δ → Prop} : ∀ {a : List α} {b : List β} {c : List γ}
    {d : List δ}, List.Forall₂ P a b → List.Forall₂ Q c d →
    List.Forall₂ (fun p q => P p.1 q.1 ∧ Q p.2 q.2) (a.zip c) (b.zip d)
  | _, _, _, _, .nil, _ => by simp
  | _, _, _, _, .cons _ _, .nil => by simp
  | _, _, _, _, .cons h hs, .cons k ks => by
    simp only [List.zip_cons_cons]
    exact .cons ⟨h, k⟩ (forall₂_zip hs ks)

theorem process_alike (hE : Steady E R) (s t : E.State) (hs : R s t) (c c' x x' o o' : Bytes)
    (hc : c.length = c'.length) (hx : x.length = x'.length) (ho : o.length = o'.length) :
    Alike SameLen (process E s c x o) (process E t c' x' o') :=
  .bind (processLoop_alike hE s t hs _ _ c c' 2 (forall₂_zip (forall₂_chunks 16 _ _ hx) (forall₂_chunks 16 _ _ ho)) hc)
    fun _ _ h => .pure (forall₂_flatten _ _ h)

theorem tag_alike (hE : Steady E R) (s t : E.State) (hs : R s t) (x x' d d' c c' : Bytes)
    (hc : c.length = c'.length) (hx : x.length = x'.length) (hd : d.length = d'.length) :
    Alike SameLen (tag E s x d c) (tag E t x' d' c') := by
  refine .bind (block_alike hE s t c c' 1 hs hc) ?_
  rintro ⟨k, c⟩ ⟨k', c'⟩ ⟨hk, hc⟩
  refine .bind (hE.permute s t _ _ hs rfl) fun _ _ _ => ?_
  refine .bind (GHash.ghash_alike _ _ _ _ _ _ hd hx) fun _ _ hh => ?_
  exact .each_len (fun _ _ => .pure trivial) (by simp [hh, show k.length = k'.length from hk])

theorem checkBounds_alike (a b c d a' b' c' d' : Bytes) (ha : a.length = a'.length) (hb : b.length = b'.length)
    (hc : c.length = c'.length) (hd : d.length = d'.length) :
    Alike (fun _ _ => True) (checkBounds a b c d) (checkBounds a' b' c' d') := by
  unfold checkBounds
  rw [ha, hb, hc, hd]
  exact .bind (.check rfl) fun _ _ _ => .bind (.check rfl) fun _ _ _ => .bind (.check rfl) fun _ _ _ =>
    (Alike.check rfl).mono fun _ _ _ => trivial

theorem encrypt_alike (hE : Steady E R) (s t : E.State) (hs : R s t) (x n d o x' n' d' o' : Bytes)
    (hx : x.length = x'.length) (hn : n.length = n'.length) (hd : d.length = d'.length) (ho : o.length = o'.length) :
    Alike (fun p q => p.1.length = q.1.length ∧ p.2.length = q.2.length) (encrypt E s x n d o) (encrypt E t x' n' d' o') :=
  .bind (checkBounds_alike _ _ _ _ _ _ _ _ hx ho hn hd) fun _ _ _ => .bind (.copy rfl hn) fun _ _ hc =>
    .bind (process_alike hE s t hs _ _ _ _ _ _ hc hx ho) fun _ _ ho =>
    .bind (tag_alike hE s t hs _ _ _ _ _ _ hc ho hd) fun _ _ ht => .pure ⟨ho, ht⟩

theorem process_total (hE : Steady E R) (s : E.State) (c x o : Bytes) : ∃ y, (process E s c x o).val = some y := by
  have h : ∀ (l : List (Bytes × Bytes)) (c : Bytes) (i : U32), ∃ y, (processLoop E s c i l).val = some y := by
    intro l
    induction l with
    | nil => intro c i; exact ⟨[], by simp [processLoop]⟩
    | cons p l ih =>
      intro c i
      obtain ⟨b, hb⟩ := hE.total s (copyAt c 12 (toBE 4 i.toNat))
      obtain ⟨y, hy⟩ := ih (copyAt c 12 (toBE 4 i.toNat)) (i + 1)
      exact ⟨_, by
        simp only [processLoop, block, val_bind, val_branch, Option.bind_some, hb, val_pure, hy,
          val_each_pure]
        rfl⟩
  obtain ⟨y, hy⟩ := h ((chunks 16 x).zip (chunks 16 o)) c 2
  exact ⟨_, by unfold process; rw [val_bind, hy, Option.bind_some, val_pure]⟩

/-- Decryption: alike as long as the two runs agree on whether the tag is accepted. -/
theorem decrypt_alike (hE : Steady E R) (s t : E.State) (hs : R s t) (x n d g o x' n' d' g' o' : Bytes)
    (hx : x.length = x'.length) (hn : n.length = n'.length) (hd : d.length = d'.length) (hg : g.length = g'.length)
    (ho : o.length = o'.length)
    (hok : ∀ r r', (decrypt E s x n d g o).val = some r → (decrypt E t x' n' d' g' o').val = some r' → r.2 = r'.2) :
    (decrypt E s x n d g o).trace = (decrypt E t x' n' d' g' o').trace := by
  revert hok
  unfold decrypt
  refine trace_bind (checkBounds_alike _ _ _ _ _ _ _ _ ho hx hn hd) fun _ _ _ => ?_
  refine trace_bind (.copy rfl hn) fun _ _ hc => ?_
  refine trace_bind (tag_alike hE s t hs _ _ _ _ _ _ hc hx hd) fun _ _ he => ?_
  refine trace_bind (Util.verify16_alike _ _ _ _ he hg) fun ok ok' _ => ?_
  rename_i c c' _ _ _
  obtain ⟨y, hy⟩ := process_total hE s c x o
  obtain ⟨y', hy'⟩ := process_total hE t c' x' o'
  intro hok
  have e : ok = ok' := by
    simp only [val_bind, val_branch, Option.bind_some] at hok
    revert hok
    cases ok <;> cases ok' <;> simp [val_bind, hy, hy']
  exact (Alike.cond (S := fun _ _ => True) e
    (fun _ => .bind (process_alike hE s t hs c c' x x' o o' hc hx ho) fun _ _ _ => .pure trivial)
    (fun _ => .pure trivial)).trace
end Gcm
end CryptoPure.Leak
