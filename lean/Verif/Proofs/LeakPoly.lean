import Verif.Proofs.LeakGcm
import Verif.Leak.Poly1305

/-! The recorded ChaCha20, Poly1305 and ChaCha20-Poly1305 compute what the model computes; two runs on inputs of equal
lengths are observed alike. -/

namespace CryptoPure.Leak

/-- Related by nothing. -/
abbrev Any {α β : Type} (_ : α) (_ : β) : Prop := True

theorem length_of_forall₂_chunks {α β : Type} (n : Nat) (a : List α) (b : List β) (h : a.length = b.length) :
    (chunks n a).length = (chunks n b).length := (forall₂_chunks n a b h).length_eq

namespace ChaCha20
open Model.ChaCha20 (Stream)

theorem readWords_val (b : Bytes) : (readWords b).val = some (Model.ChaCha20.readWords b) := val_each_pure _ _

theorem new_val (key nonce : Bytes) : (new key nonce).val = Model.ChaCha20.new key nonce := by
  unfold new Model.ChaCha20.new Model.ChaCha20.setupState
  simp only [val_bind, val_check, readWords_val, Option.bind_some, val_pure]
  rfl

theorem transformState_val (s : List U32) (c : U32) :
    (transformState s c).val = some (Model.ChaCha20.transformState s c) := by
  unfold transformState Model.ChaCha20.transformState
  rw [val_bind, val_loop_total _ (fun s _ => Model.ChaCha20.innerBlock s) (fun _ _ => rfl), Option.bind_some, val_bind,
    val_each_pure, Option.bind_some, List.zip, List.map_zipWith]
  rfl

theorem serializeBlock_val (b : List U32) : (serializeBlock b).val = some (Model.ChaCha20.serializeBlock b) := by
  unfold serializeBlock Model.ChaCha20.serializeBlock
  rw [val_bind, val_each_pure, Option.bind_some, List.flatMap_def, val_pure]

theorem block_val (s : List U32) (c : U32) : (block s c).val = some (Model.ChaCha20.block s c) := by
  unfold block Model.ChaCha20.block
  rw [val_bind, transformState_val, Option.bind_some, serializeBlock_val]

theorem stream_new_val (key nonce : Bytes) : (Stream.new key nonce).val = Model.ChaCha20.Stream.new key nonce := by
  unfold Stream.new Model.ChaCha20.Stream.new
  simp only [val_bind, new_val, block_val, Option.bind_some, val_pure, Option.bind_eq_bind]

theorem next_val (s : Stream) : (Stream.next s).val = s.next .release := by
  unfold Stream.next Model.ChaCha20.Stream.next
  simp only [val_bind, val_branch, Option.bind_some, val_ite, block_val, val_index, val_pure, addC_release,
    Option.bind_eq_bind]
  by_cases e : s.blockIndex = 64
  · simp [e]
  · simp only [beq_eq_false_iff_ne.mpr e, if_neg e, Bool.false_eq_true, if_false, Option.bind_some]

theorem processLoop_val : ∀ (zs : Bytes) (s : Stream), (Stream.processLoop s zs).val = s.processLoop .release zs
  | [], s => by simp [Stream.processLoop, Model.ChaCha20.Stream.processLoop]
  | z :: zs, s => by
    simp only [Stream.processLoop, Model.ChaCha20.Stream.processLoop, val_bind, val_branch, Option.bind_some, next_val,
      Option.bind_eq_bind]
    congr 1
    funext p
    rw [processLoop_val zs]
    rfl

theorem process_val (s : Stream) (i o : Bytes) : (Stream.process s i o).val = s.process .release i o := by
  unfold Stream.process Model.ChaCha20.Stream.process
  rw [val_bind, val_check]
  simp only [processLoop_val]
  rfl

theorem readWords_alike (b b' : Bytes) (h : b.length = b'.length) : Alike SameLen (readWords b) (readWords b') :=
  .each_len (fun _ _ => .pure trivial) (length_of_forall₂_chunks 4 _ _ h)

theorem new_alike (k n k' n' : Bytes) (hk : k.length = k'.length) (hn : n.length = n'.length) :
    Alike SameLen (new k n) (new k' n') :=
  .bind (.check (by rw [hk])) fun _ _ _ => .bind (.check (by rw [hn])) fun _ _ _ =>
    .bind (readWords_alike _ _ hk) fun _ _ hk => .bind (readWords_alike _ _ hn) fun _ _ hn =>
      .pure (by simp only [SameLen, List.length_append, List.length_cons, List.length_nil, hk, hn])

theorem innerBlock_length (s : List U32) : (Model.ChaCha20.innerBlock s).length = s.length := by
  simp [Model.ChaCha20.innerBlock, Model.ChaCha20.quarterRound]

theorem block_alike (s t : List U32) (c d : U32) (h : s.length = t.length) : Alike SameLen (block s c) (block t d) := by
  refine .bind (R := SameLen) ?_ fun a b hab => ?_
  · refine .bind (Alike.loop (Q := (· = ·)) (R := SameLen) ?_ _ _ _ _ (forall₂_eq _) (by simp only [SameLen, List.length_set, h])) fun a b hab => ?_
    · intro s t _ _ h _
      exact .pure (by rw [SameLen, innerBlock_length, innerBlock_length, h])
    · exact .bind (.each_len (fun _ _ => .pure trivial) (by simp [hab, h])) fun _ _ h =>
        .pure (by simp only [SameLen, List.length_set]; exact h)
  · refine .bind (Alike.each (Q := Any) (R := SameLen) ?_ _ _ (forall₂_true_of_len _ _ hab)) fun _ _ h =>
      .pure (forall₂_flatten _ _ h)
    intro x y _
    exact .pure (by simp [SameLen, toLE])

/-- Streams at the same position. -/
structure SamePos (s t : Stream) : Prop where
  state : s.chacha20.length = t.chacha20.length
  block : s.block.length = t.block.length
  pos : s.blockIndex = t.blockIndex

theorem stream_new_alike (k n k' n' : Bytes) (hk : k.length = k'.length) (hn : n.length = n'.length) :
    Alike SamePos (Stream.new k n) (Stream.new k' n') :=
  .bind (new_alike _ _ _ _ hk hn) fun _ _ h => .bind (block_alike _ _ _ _ h) fun _ _ hb => .pure ⟨h, hb, rfl⟩

theorem next_alike (s t : Stream) (h : SamePos s t) : Alike (fun p q => SamePos p.2 q.2) (Stream.next s) (Stream.next t) := by
  refine .bind (R := SamePos) ?_ fun s t h => ?_
  · exact .cond (by rw [h.pos]) (fun _ => .bind (block_alike _ _ _ _ h.state) fun _ _ hb => .pure ⟨h.state, hb, rfl⟩)
      (fun _ => .pure h)
  · rw [h.pos]
    exact .bind (R := Any) (.index (forall₂_true_of_len _ _ h.block)) fun _ _ _ => .pure ⟨h.state, h.block, by simp⟩

theorem processLoop_alike : ∀ (x y : Bytes) (s t : Stream), SamePos s t → x.length = y.length →
    Alike (fun p q => p.1.length = q.1.length ∧ SamePos p.2 q.2) (Stream.processLoop s x) (Stream.processLoop t y)
  | [], [], s, t, h, _ => .bind (.branch rfl) fun _ _ _ => .pure ⟨rfl, h⟩
  | z :: x, w :: y, s, t, h, hl => by
    refine .bind (.branch rfl) fun _ _ _ => .bind (next_alike s t h) ?_
    rintro ⟨a, s⟩ ⟨b, t⟩ h
    refine .bind (processLoop_alike x y s t h (by simpa using hl)) ?_
    rintro ⟨a, s⟩ ⟨b, t⟩ ⟨h, hs⟩
    exact .pure ⟨by simpa using h, hs⟩

theorem process_alike (s t : Stream) (x o y o' : Bytes) (h : SamePos s t) (hx : x.length = y.length)
    (ho : o.length = o'.length) :
    Alike (fun p q => p.1.length = q.1.length ∧ SamePos p.2 q.2) (Stream.process s x o) (Stream.process t y o') :=
  .bind (.check (by rw [hx, ho])) fun _ _ _ => processLoop_alike x y s t h hx

end ChaCha20

namespace Poly1305
open Model.Poly1305 (ck32 PolyFunction loadR)

theorem u32_val (x : Nat) : (u32 x).val = ck32 .release x := rfl

theorem addLoop_val : ∀ (l : List (Nat × U8)) (u : Nat), (addLoop u l).val = Model.Poly1305.addLoop .release u l
  | [], u => by simp [addLoop, Model.Poly1305.addLoop]
  | (hj, cj) :: l, u => by
    simp only [addLoop, Model.Poly1305.addLoop, val_bind, val_branch, Option.bind_some, u32_val, Option.bind_eq_bind,
      addLoop_val l]
    rfl

theorem add_val (h : List Nat) (c : Bytes) (b : Nat) : (add h c b).val = Model.Poly1305.add .release h c b := by
  unfold add Model.Poly1305.add
  simp only [val_bind, addLoop_val, u32_val, Option.bind_eq_bind]
  rfl

theorem carryLoop_val : ∀ (l : List Nat) (u : Nat), (carryLoop u l).val = Model.Poly1305.carryLoop .release u l
  | [], u => by simp [carryLoop, Model.Poly1305.carryLoop]
  | hj :: l, u => by
    simp only [carryLoop, Model.Poly1305.carryLoop, val_bind, val_branch, Option.bind_some, u32_val, Option.bind_eq_bind,
      carryLoop_val l]
    rfl

theorem squeeze_val (h : List Nat) : (squeeze h).val = Model.Poly1305.squeeze .release h := by
  unfold squeeze Model.Poly1305.squeeze
  simp only [val_bind, carryLoop_val, u32_val, Option.bind_eq_bind]
  rfl

theorem mulRow_val (h : List Nat) (r : Bytes) (i : Nat) : (mulRow h r i).val = Model.Poly1305.mulRow .release h r i := by
  unfold mulRow Model.Poly1305.mulRow
  simp only [val_bind, val_loop, val_get, u32_val, Option.bind_some, Option.bind_eq_bind]

theorem mulmod_val (h : List Nat) (r : Bytes) : (mulmod h r).val = Model.Poly1305.mulmod .release h r := by
  unfold mulmod Model.Poly1305.mulmod
  simp only [val_bind, val_each, mulRow_val, squeeze_val, Option.bind_eq_bind]

theorem polyProcess_val (f : PolyFunction) (x : Bytes) : (polyProcess f x).val = f.process .release x := by
  unfold polyProcess PolyFunction.process
  simp only [val_bind, add_val, mulmod_val, Option.bind_eq_bind, val_pure]

theorem freeze_val (h : List Nat) : (freeze h).val = Model.Poly1305.freeze .release h := by
  unfold freeze Model.Poly1305.freeze
  simp only [val_bind, add_val, val_each_pure, List.zip, List.map_zipWith, Option.bind_eq_bind]

theorem value_val (f : PolyFunction) : (value f).val = f.value .release := by
  unfold value PolyFunction.value
  simp only [val_bind, freeze_val, add_val, val_each_pure, Option.bind_eq_bind]

theorem processChunk_val (f : PolyFunction) (c : Bytes) :
    (processChunk f c).val = Model.Poly1305.processChunk .release f c := by
  unfold processChunk Model.Poly1305.processChunk
  rw [val_bind, val_branch, Option.bind_some, val_ite, val_bind, val_copy, Option.bind_some, polyProcess_val, polyProcess_val]
  by_cases h : c.length < 16 <;> simp [h]

theorem poly1305_val (key data ct : Bytes) : (poly1305 key data ct).val = Model.Poly1305.poly1305 .release key data ct := by
  unfold poly1305 Model.Poly1305.poly1305 Model.Poly1305.Poly1305.new Model.Poly1305.Poly1305.update
    Model.Poly1305.Poly1305.writeTag Model.Poly1305.Poly1305.process
  simp only [val_bind, val_loop, processChunk_val, polyProcess_val, value_val, Option.bind_eq_bind, addC_release,
    Option.bind_assoc, Option.bind_some, show ∀ x : U64, 0 + x = x from fun x => by simp]

theorem tag_val (c : List U32) (ct data : Bytes) : (tag c ct data).val = Model.Poly1305.tag .release c ct data := by
  unfold tag Model.Poly1305.tag Model.Poly1305.polyKeyGen
  rw [val_bind, ChaCha20.block_val, Option.bind_some, poly1305_val]

theorem processLoop_val (c : List U32) : ∀ (l : List (Bytes × Bytes)) (i : U32),
    (processLoop c i l).val = Model.Poly1305.processLoop .release c i l
  | [], i => by simp [processLoop, Model.Poly1305.processLoop, rangeNext_release]
  | (inp, out) :: l, i => by
    simp only [processLoop, Model.Poly1305.processLoop, rangeNext_release, val_bind, val_branch, Option.bind_some,
      ChaCha20.block_val, val_each_pure, processLoop_val c l, val_pure, Option.bind_eq_bind, List.zip, List.map_zipWith]

theorem process_val (c : List U32) (x o : Bytes) : (process c x o).val = Model.Poly1305.process .release c x o := by
  unfold process Model.Poly1305.process
  simp only [val_bind, processLoop_val, val_pure, Option.bind_eq_bind]

theorem encrypt_val (key input nonce data output : Bytes) :
    (encrypt key input nonce data output).val = Model.Poly1305.encrypt .release key input nonce data output := by
  unfold encrypt Model.Poly1305.encrypt
  simp only [val_bind, val_check, ChaCha20.new_val, process_val, tag_val, val_pure, Option.bind_eq_bind]

theorem decrypt_val (key input nonce data tag' output : Bytes) :
    (decrypt key input nonce data tag' output).val =
      Model.Poly1305.decrypt .release key input nonce data tag' output := by
  unfold decrypt Model.Poly1305.decrypt
  simp only [val_bind, val_check, ChaCha20.new_val, tag_val, Util.verify16_val, val_branch, Option.bind_some, val_ite,
    process_val, val_pure, Option.bind_eq_bind]

theorem u32_alike (x y : Nat) : Alike Any (u32 x) (u32 y) := by
  have h : ∀ x, ∃ y, ck32 .release x = some y := fun x => by
    unfold ck32
    split
    · exact ⟨_, rfl⟩
    · exact ⟨_, rfl⟩
  obtain ⟨a, ha⟩ := h x
  obtain ⟨b, hb⟩ := h y
  exact .op ⟨a, b, ha, hb, trivial⟩

theorem addLoop_alike : ∀ (l l' : List (Nat × U8)) (u u' : Nat), l.length = l'.length →
    Alike (fun p q => p.1.length = q.1.length) (addLoop u l) (addLoop u' l')
  | [], [], _, _, _ => .bind (.branch rfl) fun _ _ _ => .pure rfl
  | (_, _) :: l, (_, _) :: l', u, u', h => by
    refine .bind (.branch rfl) fun _ _ _ => .bind (u32_alike _ _) fun _ _ _ => .bind (u32_alike _ _) fun _ _ _ => ?_
    refine .bind (addLoop_alike l l' _ _ (by simpa using h)) ?_
    rintro ⟨a, _⟩ ⟨b, _⟩ h
    exact .pure (by simpa using h)

theorem add_alike (h h' : List Nat) (c c' : Bytes) (b b' : Nat) (hh : h.length = h'.length) (hc : c.length = c'.length) :
    Alike SameLen (add h c b) (add h' c' b') := by
  refine .bind (addLoop_alike _ _ _ _ (by simp [hh, hc])) ?_
  rintro ⟨a, _⟩ ⟨a', _⟩ ha
  dsimp only at ha
  exact .bind (u32_alike _ _) fun _ _ _ => .bind (u32_alike _ _) fun _ _ _ => .pure (by simp [SameLen, hh, ha])

theorem carryLoop_alike : ∀ (l l' : List Nat) (u u' : Nat), l.length = l'.length →
    Alike (fun p q => p.1.length = q.1.length) (carryLoop u l) (carryLoop u' l')
  | [], [], _, _, _ => .bind (.branch rfl) fun _ _ _ => .pure rfl
  | _ :: l, _ :: l', u, u', h => by
    refine .bind (.branch rfl) fun _ _ _ => .bind (u32_alike _ _) fun _ _ _ => ?_
    refine .bind (carryLoop_alike l l' _ _ (by simpa using h)) ?_
    rintro ⟨a, _⟩ ⟨b, _⟩ h
    exact .pure (by simpa using h)

theorem squeeze_alike (h h' : List Nat) (hh : h.length = h'.length) : Alike SameLen (squeeze h) (squeeze h') := by
  refine .bind (carryLoop_alike _ _ _ _ (by simp [hh])) ?_
  rintro ⟨a, _⟩ ⟨a', _⟩ ha
  refine .bind (u32_alike _ _) fun _ _ _ => .bind (u32_alike _ _) fun _ _ _ => .bind (carryLoop_alike _ _ _ _ ha) ?_
  rintro ⟨a, _⟩ ⟨a', _⟩ ha
  dsimp only at ha
  exact .bind (u32_alike _ _) fun _ _ _ => .pure (by simp [SameLen, ha])

theorem mulRow_alike (h h' : List Nat) (r r' : Bytes) (i : Nat) : Alike Any (mulRow h r i) (mulRow h' r' i) := by
  refine .bind (Alike.loop (Q := (· = ·)) (R := Any) ?_ _ _ _ _ (forall₂_eq _) trivial) fun u u' _ =>
    Alike.loop (Q := (· = ·)) (R := Any) ?_ _ _ _ _ (forall₂_eq _) trivial
  · rintro _ _ j _ _ rfl
    exact .bind (R := Any) (.get trivial) fun _ _ _ => .bind (R := Any) (.get trivial) fun _ _ _ =>
      .bind (u32_alike _ _) fun _ _ _ => u32_alike _ _
  · rintro _ _ j _ _ rfl
    exact .bind (R := Any) (.get trivial) fun _ _ _ => .bind (u32_alike _ _) fun _ _ _ =>
      .bind (R := Any) (.get trivial) fun _ _ _ => .bind (u32_alike _ _) fun _ _ _ => u32_alike _ _

theorem mulmod_alike (h h' : List Nat) (r r' : Bytes) : Alike SameLen (mulmod h r) (mulmod h' r') :=
  .bind (Alike.each (Q := (· = ·)) (R := Any) (fun i _ e => by subst e; exact mulRow_alike _ _ _ _ _) _ _ (forall₂_eq _))
    fun _ _ h => squeeze_alike _ _ h.length_eq

/-- Accumulators of equal shape. -/
structure SameShape (f g : PolyFunction) : Prop where
  h : f.h.length = g.h.length
  c : f.constantTerm.length = g.constantTerm.length

theorem polyProcess_alike (f g : PolyFunction) (x y : Bytes) (h : SameShape f g) (hx : x.length = y.length) :
    Alike SameShape (polyProcess f x) (polyProcess g y) :=
  .bind (add_alike _ _ _ _ _ _ h.h hx) fun _ _ _ => .bind (mulmod_alike _ _ _ _) fun _ _ hm => .pure ⟨hm, h.c⟩

theorem freeze_alike (h h' : List Nat) (hh : h.length = h'.length) : Alike SameLen (freeze h) (freeze h') :=
  .bind (add_alike _ _ _ _ _ _ hh rfl) fun _ _ ha => .each_len (fun _ _ => .pure trivial) (by simp [ha, hh])

theorem value_alike (f g : PolyFunction) (h : SameShape f g) : Alike SameLen (value f) (value g) :=
  .bind (freeze_alike _ _ h.h) fun _ _ hf => .bind (add_alike _ _ _ _ _ _ hf h.c) fun _ _ ha =>
    .each_len (fun _ _ => .pure trivial) (by simp [ha])

theorem processChunk_alike (f g : PolyFunction) (x y : Bytes) (h : SameShape f g) (hx : x.length = y.length) :
    Alike SameShape (processChunk f x) (processChunk g y) :=
  .cond (by rw [hx]) (fun _ => .bind (.copy rfl hx) fun _ _ hb => polyProcess_alike _ _ _ _ h hb)
    (fun _ => polyProcess_alike _ _ _ _ h hx)

theorem poly1305_alike (k d c k' d' c' : Bytes) (hk : k.length = k'.length) (hd : d.length = d'.length)
    (hc : c.length = c'.length) : Alike SameLen (poly1305 k d c) (poly1305 k' d' c') :=
  .bind (Alike.loop (Q := SameLen) (fun s t x y h hx => processChunk_alike s t x y h hx) _ _ _ _ (forall₂_chunks 16 _ _ hd)
    ⟨rfl, by simp [PolyFunction.new, hk]⟩) fun _ _ h =>
  .bind (Alike.loop (Q := SameLen) (fun s t x y h hx => processChunk_alike s t x y h hx) _ _ _ _ (forall₂_chunks 16 _ _ hc) h) fun _ _ h =>
  .bind (polyProcess_alike _ _ _ _ h (by simp [toLE])) fun _ _ h => value_alike _ _ h

theorem tag_alike (s s' : List U32) (c d c' d' : Bytes) (hs : s.length = s'.length) (hc : c.length = c'.length)
    (hd : d.length = d'.length) : Alike SameLen (tag s c d) (tag s' c' d') :=
  .bind (ChaCha20.block_alike _ _ _ _ hs) fun _ _ hb => poly1305_alike _ _ _ _ _ _ (by simp [hb]) hd hc

theorem processLoop_alike (s t : List U32) (hs : s.length = t.length) :
    ∀ (l l' : List (Bytes × Bytes)) (i : U32),
      List.Forall₂ (fun p q => p.1.length = q.1.length ∧ p.2.length = q.2.length) l l' →
      Alike (List.Forall₂ SameLen) (processLoop s i l) (processLoop t i l')
  | [], [], _, _ => .bind (.branch rfl) fun _ _ _ => .pure .nil
  | (a, b) :: l, (a', b') :: l', i, .cons hp hl => by
    refine .bind (.branch rfl) fun _ _ _ => .bind (ChaCha20.block_alike s t i i hs) fun _ _ hk => ?_
    dsimp only at hp
    refine .bind (.each_len (fun _ _ => .pure trivial) (by simp [hk, hp.1, hp.2])) fun _ _ ho => ?_
    exact .bind (processLoop_alike s t hs l l' (i + 1) hl) fun _ _ h => .pure (.cons ho h)

theorem process_alike (s t : List U32) (hs : s.length = t.length) (x x' o o' : Bytes)
    (hx : x.length = x'.length) (ho : o.length = o'.length) : Alike SameLen (process s x o) (process t x' o') :=
  .bind (processLoop_alike s t hs _ _ 1 (Gcm.forall₂_zip (forall₂_chunks 64 _ _ hx) (forall₂_chunks 64 _ _ ho)))
    fun _ _ h => .pure (forall₂_flatten _ _ h)

theorem encrypt_alike (k x n d o k' x' n' d' o' : Bytes) (hk : k.length = k'.length)
    (hx : x.length = x'.length) (hn : n.length = n'.length) (hd : d.length = d'.length) (ho : o.length = o'.length) :
    Alike (fun p q => p.1.length = q.1.length ∧ p.2.length = q.2.length) (encrypt k x n d o) (encrypt k' x' n' d' o') :=
  .bind (.check (by rw [hx, ho])) fun _ _ _ => .bind (ChaCha20.new_alike _ _ _ _ hk hn) fun _ _ hc =>
    .bind (process_alike _ _ hc _ _ _ _ hx ho) fun _ _ ho =>
    .bind (tag_alike _ _ _ _ _ _ hc ho hd) fun _ _ ht => .pure ⟨ho, ht⟩

theorem process_total (s : List U32) (x o : Bytes) : ∃ y, (process s x o).val = some y := by
  have h : ∀ (l : List (Bytes × Bytes)) (i : U32), ∃ y, (processLoop s i l).val = some y := by
    intro l
    induction l with
    | nil => intro i; exact ⟨[], by simp [processLoop]⟩
    | cons p l ih =>
      intro i
      obtain ⟨y, hy⟩ := ih (i + 1)
      exact ⟨_, by
        simp only [processLoop, val_bind, val_branch, Option.bind_some, ChaCha20.block_val, val_pure, hy, val_each_pure]
        rfl⟩
  obtain ⟨y, hy⟩ := h ((chunks 64 x).zip (chunks 64 o)) 1
  exact ⟨_, by unfold process; rw [val_bind, hy, Option.bind_some, val_pure]⟩

/-- Decryption: alike as long as the two runs agree on whether the tag is accepted. -/
theorem decrypt_alike (k x n d g o k' x' n' d' g' o' : Bytes) (hk : k.length = k'.length)
    (hx : x.length = x'.length) (hn : n.length = n'.length) (hd : d.length = d'.length) (hg : g.length = g'.length)
    (ho : o.length = o'.length)
    (hok : ∀ r r', (decrypt k x n d g o).val = some r → (decrypt k' x' n' d' g' o').val = some r' → r.2 = r'.2) :
    (decrypt k x n d g o).trace = (decrypt k' x' n' d' g' o').trace := by
  revert hok
  unfold decrypt
  refine trace_bind (.check (by rw [ho, hx])) fun _ _ _ => ?_
  refine trace_bind (ChaCha20.new_alike _ _ _ _ hk hn) fun s t hs => ?_
  refine trace_bind (tag_alike _ _ _ _ _ _ hs hx hd) fun _ _ he => ?_
  refine trace_bind (Util.verify16_alike _ _ _ _ he hg) fun ok ok' _ => ?_
  obtain ⟨y, hy⟩ := process_total s x o
  obtain ⟨y', hy'⟩ := process_total t x' o'
  intro hok
  have e : ok = ok' := by
    simp only [val_bind, val_branch, Option.bind_some] at hok
    revert hok
    cases ok <;> cases ok' <;> simp [val_bind, hy, hy']
  exact (Alike.cond (S := Any) e
    (fun _ => .bind (process_alike s t hs x x' o o' hx ho) fun _ _ _ => .pure trivial)
    (fun _ => .pure trivial)).trace

end Poly1305
end CryptoPure.Leak
