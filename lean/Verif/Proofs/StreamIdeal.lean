import Verif.Proofs.Basic
import Verif.Proofs.Prob
import Verif.Model.ChaChaWith
import Verif.Spec.StreamGame
import Mathlib.Logic.Function.Basic
import Mathlib.Tactic.ByContra

/-! # The stream over a random block function -/

namespace CryptoPure.Proofs.StreamIdeal
open CryptoPure.Model CryptoPure.Model.ChaCha20 StreamGame

/-! ## The parametric stream is the stream -/

attribute [local irreducible] CryptoPure.Model.ChaCha20.block

theorem next_with (m : Mode) (s : Stream) :
    (s.next m).map (fun p => (p.1, p.2.toWith)) = s.toWith.next m := by
  obtain ⟨ch, ct, bl, bi⟩ := s
  unfold Stream.next StreamWith.next
  by_cases h : bi = 64
  · subst h
    simp only [Stream.toWith, if_true]
    cases addC m ct 1 with
    | none => rfl
    | some c =>
      simp only [Option.bind_eq_bind, Option.bind_some]
      cases (ChaCha20.block ch c)[(0 : U8).toNat]? with
      | none => rfl
      | some b =>
        simp only [Option.bind_some]
        cases addC m (0 : U8) 1 <;> rfl
  · simp only [Stream.toWith, h, if_false, Option.bind_eq_bind, Option.bind_some]
    cases bl[bi.toNat]? with
    | none => rfl
    | some b =>
      simp only [Option.bind_some]
      cases addC m bi 1 <;> rfl

theorem processLoop_with (m : Mode) (x : Bytes) (s : Stream) :
    (s.processLoop m x).map (fun p => (p.1, p.2.toWith)) = s.toWith.processLoop m x := by
  induction x generalizing s with
  | nil => rfl
  | cons z zs ih =>
    rw [Stream.processLoop, StreamWith.processLoop, ← next_with]
    cases hn : s.next m with
    | none => rfl
    | some p =>
      obtain ⟨y, s1⟩ := p
      simp only [Option.map_some, Option.bind_eq_bind, Option.bind_some, ← ih]
      cases s1.processLoop m zs <;> rfl

theorem process_with (m : Mode) (x y : Bytes) (s : Stream) :
    (s.process m x y).map (fun p => (p.1, p.2.toWith)) = s.toWith.process m x y := by
  unfold Stream.process StreamWith.process
  rw [← processLoop_with]
  cases assert (x.length == y.length) <;> rfl

theorem new_with (key nonce : Bytes) :
    (Stream.new key nonce).map Stream.toWith =
      StreamWith.new (fun n => (ChaCha20.new key n).map ChaCha20.block) nonce := by
  unfold Stream.new StreamWith.new
  simp only [Option.bind_eq_bind]
  cases ChaCha20.new key nonce <;> rfl

/-! ## Positions in the keystream -/

/-- Byte `n` of the keystream of a block function. -/
def kb (f : U32 → Bytes) (n : Nat) : U8 := (f (BitVec.ofNat 32 (n / 64))).getD (n % 64) 0

/-- The stream object after `n` bytes. -/
def pos (f : U32 → Bytes) (n : Nat) : StreamWith :=
  { blockFn := f
    counter := BitVec.ofNat 32 ((n - 1) / 64)
    block := f (BitVec.ofNat 32 ((n - 1) / 64))
    blockIndex := BitVec.ofNat 8 (if n = 0 then 0 else (n - 1) % 64 + 1) }

theorem next_wrap (m : Mode) (s : StreamWith) (h : s.blockIndex = 64) (c : U32) (hc : addC m s.counter 1 = some c)
    (b : U8) (hb : (s.blockFn c)[0]? = some b) :
    s.next m = some (b, { s with counter := c, block := s.blockFn c, blockIndex := 1 }) := by
  have h1 : addC m (0 : U8) 1 = some 1 := addC_ok m 0 1 (by decide)
  unfold StreamWith.next
  rw [if_pos h, hc]
  change ((s.blockFn c)[0]?).bind _ = _
  rw [hb, Option.bind_some]
  change (addC m (0 : U8) 1).bind _ = _
  rw [h1]
  rfl

theorem next_plain (m : Mode) (s : StreamWith) (h : s.blockIndex ≠ 64) (i : U8) (hi : addC m s.blockIndex 1 = some i)
    (b : U8) (hb : s.block[s.blockIndex.toNat]? = some b) :
    s.next m = some (b, { s with blockIndex := i }) := by
  unfold StreamWith.next
  rw [if_neg h]
  change (s.block[s.blockIndex.toNat]?).bind _ = _
  rw [hb, Option.bind_some, hi]
  rfl

theorem next_ok (f : U32 → Bytes) (hf : ∀ c, (f c).length = 64) (m : Mode) (n : Nat) (h : n < 2 ^ 38) :
    (pos f n).next m = some (kb f n, pos f (n + 1)) := by
  have hidx : ∀ c : U32, ∀ i, i < 64 → (f c)[i]? = some ((f c).getD i 0) := by
    intro c i hi
    rw [List.getD_eq_getElem?_getD, List.getElem?_eq_getElem (by rw [hf]; exact hi)]
    rfl
  have hadd : ∀ i : Nat, i < 64 → addC m (BitVec.ofNat 8 i) 1 = some (BitVec.ofNat 8 (i + 1)) := by
    intro i hi
    rw [addC_ok _ _ _ (by rw [BitVec.toNat_ofNat]; change i % 256 + 1 < 256; omega)]
    congr 1
    rw [BitVec.ofNat_add]; rfl
  have hto : ∀ i : Nat, i < 64 → (BitVec.ofNat 8 i).toNat = i := by
    intro i hi; rw [BitVec.toNat_ofNat]; omega
  by_cases h64 : n ≠ 0 ∧ n % 64 = 0
  · obtain ⟨hn0, hmod⟩ := h64
    have hbi : (pos f n).blockIndex = 64 := by
      simp only [pos, if_neg hn0]
      rw [show (n - 1) % 64 + 1 = 64 by omega]; rfl
    have hctr : addC m (pos f n).counter 1 = some (BitVec.ofNat 32 (n / 64)) := by
      have e : BitVec.ofNat 32 ((n - 1) / 64) + 1 = BitVec.ofNat 32 (n / 64) := by
        rw [show n / 64 = (n - 1) / 64 + 1 by omega, BitVec.ofNat_add]; rfl
      rw [addC_ok _ _ _ (by
          simp only [pos, BitVec.toNat_ofNat]
          change (n - 1) / 64 % 2 ^ 32 + 1 < 2 ^ 32; omega)]
      exact congrArg some e
    rw [next_wrap m _ hbi _ hctr _ (hidx _ 0 (by omega))]
    have e1 : kb f n = (f (BitVec.ofNat 32 (n / 64))).getD 0 0 := by
      unfold kb; rw [hmod]
    have e2 : pos f (n + 1) =
        { blockFn := f, counter := BitVec.ofNat 32 (n / 64), block := f (BitVec.ofNat 32 (n / 64)), blockIndex := 1 } := by
      unfold pos
      rw [if_neg (by omega : ¬ n + 1 = 0), Nat.add_sub_cancel, hmod]
      rfl
    rw [e1, e2]
    rfl
  · have hbi : (pos f n).blockIndex = BitVec.ofNat 8 (n % 64) := by
      simp only [pos]
      split
      · rename_i e; subst e; rfl
      · congr 1; omega
    have hne : (pos f n).blockIndex ≠ 64 := by
      intro e
      have := congrArg BitVec.toNat e
      rw [hbi, BitVec.toNat_ofNat] at this
      change n % 64 % 256 = 64 at this
      omega
    have hc : (n - 1) / 64 = n / 64 := by omega
    rw [next_plain m _ hne _ (by rw [hbi]; exact hadd _ (by omega)) _
      (by rw [hbi, hto _ (by omega)]; exact hidx _ _ (by omega)), hc]
    have e2 : pos f (n + 1) =
        { blockFn := f, counter := BitVec.ofNat 32 (n / 64), block := f (BitVec.ofNat 32 (n / 64)),
          blockIndex := BitVec.ofNat 8 (n % 64 + 1) } := by
      unfold pos
      rw [if_neg (by omega : ¬ n + 1 = 0), Nat.add_sub_cancel]
    rw [e2]
    unfold pos
    rw [hc]
    rfl

/-- `k` bytes of the keystream from byte `n` on. -/
def kbs (f : U32 → Bytes) (n k : Nat) : Bytes := (List.range k).map (fun i => kb f (n + i))

theorem kbs_succ (f : U32 → Bytes) (n k : Nat) : kbs f n (k + 1) = kb f n :: kbs f (n + 1) k := by
  unfold kbs
  rw [List.range_succ_eq_map, List.map_cons, List.map_map]
  congr 1
  apply List.map_congr_left
  intro i _
  simp only [Function.comp]; congr 1; omega

theorem processLoop_ok (f : U32 → Bytes) (hf : ∀ c, (f c).length = 64) (m : Mode) (x : Bytes) (n : Nat)
    (h : n + x.length ≤ 2 ^ 38) :
    (pos f n).processLoop m x = some (xorBytes x (kbs f n x.length), pos f (n + x.length)) := by
  induction x generalizing n with
  | nil => simp [StreamWith.processLoop, xorBytes]
  | cons z zs ih =>
    rw [List.length_cons] at h
    rw [StreamWith.processLoop, next_ok f hf m n (by omega)]
    simp only [Option.bind_eq_bind, Option.bind_some]
    rw [ih (n + 1) (by omega)]
    simp only [Option.bind_some, List.length_cons]
    rw [kbs_succ, show n + 1 + zs.length = n + (zs.length + 1) by omega, BitVec.xor_comm]
    rfl

theorem process_ok (f : U32 → Bytes) (hf : ∀ c, (f c).length = 64) (m : Mode) (x y : Bytes) (n : Nat)
    (h : n + x.length ≤ 2 ^ 38) :
    (pos f n).process m x y =
      if x.length = y.length then some (xorBytes x (kbs f n x.length), pos f (n + x.length)) else none := by
  unfold StreamWith.process
  by_cases hl : x.length = y.length
  · rw [if_pos hl, show (x.length == y.length) = true by simpa using hl]
    exact processLoop_ok f hf m x n h
  · rw [if_neg hl, show (x.length == y.length) = false by simpa using hl]
    rfl

/-! ## The game on positions -/

/-- All keystream blocks: for each nonce and counter, the 64 bytes of a block. -/
abbrev Blocks := {n : Bytes // n.length = 12} → U32 → Fin 64 → U8

/-- The block function of a nonce. -/
def fn (G : Blocks) (nonce : Bytes) : U32 → Bytes :=
  fun c => if h : nonce.length = 12 then List.ofFn (G ⟨nonce, h⟩ c) else zeros 64

theorem fn_length (G : Blocks) (nonce : Bytes) (c : U32) : (fn G nonce c).length = 64 := by
  unfold fn; split <;> simp [zeros]

/-- The block functions as a setup routine, with the length check of `ChaCha20::new`. -/
def setup (G : Blocks) (nonce : Bytes) : Option (U32 → Bytes) :=
  if nonce.length = 12 then some (fn G nonce) else none

theorem new_ok (G : Blocks) (nonce : Bytes) :
    StreamWith.new (setup G) nonce = if nonce.length = 12 then some (pos (fn G nonce) 0) else none := by
  unfold StreamWith.new setup
  by_cases h : nonce.length = 12
  · rw [if_pos h, if_pos h]; rfl
  · rw [if_neg h, if_neg h]; rfl

/-- The stream cipher with the blocks as its key. -/
def scheme (m : Mode) : Scheme Blocks StreamWith where
  new G nonce := StreamWith.new (setup G) nonce
  process s x y := s.process m x y

theorem scheme_new (m : Mode) (G : Blocks) (nonce : Bytes) :
    (scheme m).new G nonce = if nonce.length = 12 then some (pos (fn G nonce) 0) else none := new_ok G nonce

theorem scheme_process (m : Mode) (f : U32 → Bytes) (hf : ∀ c, (f c).length = 64) (x y : Bytes) (n : Nat)
    (h : n + x.length ≤ 2 ^ 38) :
    (scheme m).process (pos f n) x y =
      if x.length = y.length then some (xorBytes x (kbs f n x.length), pos f (n + x.length)) else none :=
  process_ok f hf m x y n h

/-- The game on positions. -/
def run (r : Bool) (G : Blocks) : Adversary → (Bytes → Option Nat) → Bool
  | .stop guess, _ => guess
  | .start nonce next, p =>
    if (p nonce).isSome ∨ nonce.length ≠ 12 then run r G (next false) p
    else run r G (next true) (Function.update p nonce (some 0))
  | .send nonce msg msg' buffer next, p =>
    match p nonce with
    | none => run r G (next none) p
    | some n =>
      if msg.length ≠ msg'.length ∨ 2 ^ 38 < n + msg.length ∨ msg.length ≠ buffer.length then run r G (next none) p
      else run r G (next (some (xorBytes (if r then msg' else msg) (kbs (fn G nonce) n msg.length))))
        (Function.update p nonce (some (n + msg.length)))

/-- The list of streams describes the positions `p`. -/
def Describes (G : Blocks) (l : List (Bytes × Nat × StreamWith)) (p : Bytes → Option Nat) : Prop :=
  (∀ x, x ∈ l.map Prod.fst ↔ (p x).isSome) ∧
  (∀ x, l.lookup x = (p x).map fun n => (n, pos (fn G x) n))

theorem Describes.cons {G : Blocks} {l : List (Bytes × Nat × StreamWith)} {p : Bytes → Option Nat} (h : Describes G l p)
    (x : Bytes) (n : Nat) : Describes G ((x, n, pos (fn G x) n) :: l) (Function.update p x (some n)) := by
  refine ⟨fun y => ?_, fun y => ?_⟩
  · by_cases e : y = x
    · subst e; simp
    · rw [Function.update_of_ne e, List.map_cons, List.mem_cons, ← h.1 y]
      simp [e]
  · by_cases e : y = x
    · subst e; simp
    · rw [Function.update_of_ne e, List.lookup_cons, ← h.2 y, show (y == x) = false by simpa using e]

theorem play_eq (m : Mode) (r : Bool) (G : Blocks) (A : Adversary) (l : List (Bytes × Nat × StreamWith))
    (p : Bytes → Option Nat) (h : Describes G l p) : play (scheme m) r G A l = run r G A p := by
  induction A generalizing l p with
  | stop guess => rfl
  | start nonce next ih =>
    unfold play run
    by_cases h1 : nonce ∈ l.map Prod.fst
    · rw [if_pos h1, if_pos (.inl ((h.1 _).mp h1))]
      exact ih _ _ _ h
    · rw [if_neg h1]
      have h1' : ¬ (p nonce).isSome := fun e => h1 ((h.1 _).mpr e)
      rw [scheme_new]
      by_cases h2 : nonce.length = 12
      · rw [if_pos h2, if_neg (by simp [h2] at h1' ⊢; exact h1' : ¬ ((p nonce).isSome = true ∨ nonce.length ≠ 12))]
        exact ih _ _ _ (h.cons nonce 0)
      · rw [if_neg h2, if_pos (Or.inr h2 : (p nonce).isSome = true ∨ nonce.length ≠ 12)]
        exact ih _ _ _ h
  | send nonce msg msg' buffer next ih =>
    unfold play run
    rw [h.2 nonce]
    cases hp : p nonce with
    | none => exact ih _ _ _ h
    | some n =>
      simp only [Option.map_some]
      by_cases h1 : msg.length ≠ msg'.length ∨ 2 ^ 38 < n + msg.length
      · rw [if_pos h1, if_pos (by tauto)]
        exact ih _ _ _ h
      · rw [if_neg h1]
        push Not at h1
        have hl : (if r then msg' else msg).length = msg.length := by split <;> simp [h1.1]
        rw [scheme_process m _ (fn_length G nonce) _ _ _ (by rw [hl]; exact h1.2), hl]
        by_cases h3 : msg.length = buffer.length
        · rw [if_pos h3, if_neg (by push Not; exact ⟨h1.1, h1.2, h3⟩ :
            ¬ (msg.length ≠ msg'.length ∨ 2 ^ 38 < n + msg.length ∨ msg.length ≠ buffer.length))]
          exact ih _ _ _ (h.cons nonce _)
        · rw [if_neg h3, if_pos (Or.inr (Or.inr h3) :
            msg.length ≠ msg'.length ∨ 2 ^ 38 < n + msg.length ∨ msg.length ≠ buffer.length)]
          exact ih _ _ _ h

/-! ## The shift of the keystream that exchanges the two messages -/

/-- What to add to the keystream of each nonce at each position. -/
def shift (r : Bool) (G : Blocks) : Adversary → (Bytes → Option Nat) → Bytes → Nat → U8
  | .stop _, _ => fun _ _ => 0
  | .start nonce next, p =>
    if (p nonce).isSome ∨ nonce.length ≠ 12 then shift r G (next false) p
    else shift r G (next true) (Function.update p nonce (some 0))
  | .send nonce msg msg' buffer next, p =>
    match p nonce with
    | none => shift r G (next none) p
    | some n =>
      if msg.length ≠ msg'.length ∨ 2 ^ 38 < n + msg.length ∨ msg.length ≠ buffer.length then shift r G (next none) p
      else fun x i =>
        if x = nonce ∧ n ≤ i ∧ i < n + msg.length then msg.getD (i - n) 0 ^^^ msg'.getD (i - n) 0
        else shift r G (next (some (xorBytes (if r then msg' else msg) (kbs (fn G nonce) n msg.length))))
          (Function.update p nonce (some (n + msg.length))) x i

/-- The blocks with the shift added. -/
def add (G : Blocks) (d : Bytes → Nat → U8) : Blocks :=
  fun x c j => G x c j ^^^ d x.1 (c.toNat * 64 + j.1)

theorem kb_fn (G : Blocks) (x : Bytes) (hx : x.length = 12) (n : Nat) :
    kb (fn G x) n = G ⟨x, hx⟩ (BitVec.ofNat 32 (n / 64)) ⟨n % 64, by omega⟩ := by
  unfold kb fn
  rw [dif_pos hx, List.getD_eq_getElem?_getD, List.getElem?_ofFn]
  simp [Nat.mod_lt]

theorem kb_add (G : Blocks) (d : Bytes → Nat → U8) (x : Bytes) (hx : x.length = 12) (n : Nat) (hn : n < 2 ^ 38) :
    kb (fn (add G d) x) n = kb (fn G x) n ^^^ d x n := by
  rw [kb_fn _ _ hx, kb_fn _ _ hx]
  unfold add
  congr 2
  simp only [BitVec.toNat_ofNat]
  omega

/-- `G` and `G'` agree on all that is not yet used. -/
def Agree (p : Bytes → Option Nat) (G G' : Blocks) : Prop :=
  ∀ x i, x.length = 12 → i < 2 ^ 38 → (∀ n, p x = some n → n ≤ i) → kb (fn G x) i = kb (fn G' x) i

/-- Streams exist for nonces of the right length only. -/
def Fine (p : Bytes → Option Nat) : Prop := ∀ x n, p x = some n → x.length = 12

theorem Fine.update {p : Bytes → Option Nat} (h : Fine p) {x : Bytes} (hx : x.length = 12) (n : Nat) :
    Fine (Function.update p x (some n)) := by
  intro y k
  by_cases e : y = x
  · subst e; intro _; exact hx
  · rw [Function.update_of_ne e]; exact h y k

theorem Agree.fresh {p : Bytes → Option Nat} {G G' : Blocks} (h : Agree p G G') (x : Bytes) (hx : p x = none) :
    Agree (Function.update p x (some 0)) G G' := by
  intro y i hy hi hn
  refine h y i hy hi fun n hp => hn n ?_
  have : y ≠ x := by rintro rfl; rw [hx] at hp; cases hp
  rwa [Function.update_of_ne this]

theorem Agree.used {p : Bytes → Option Nat} {G G' : Blocks} (h : Agree p G G') (x : Bytes) (n k : Nat) (hx : p x = some n)
    (hnk : n ≤ k) : Agree (Function.update p x (some k)) G G' := by
  intro y i hy hi hn
  refine h y i hy hi fun n' hp => ?_
  by_cases e : y = x
  · subst e
    have := hn k (Function.update_self ..)
    rw [hx] at hp; cases hp
    omega
  · exact hn n' (by rwa [Function.update_of_ne e])

theorem kbs_agree {p : Bytes → Option Nat} {G G' : Blocks} (h : Agree p G G') (x : Bytes) (hx : x.length = 12) (n k : Nat)
    (hp : p x = some n) (hk : n + k ≤ 2 ^ 38) : kbs (fn G x) n k = kbs (fn G' x) n k := by
  unfold kbs
  apply List.map_congr_left
  intro i hi
  have := List.mem_range.mp hi
  refine h x (n + i) hx (by omega) fun n' e => ?_
  rw [hp] at e; cases e
  omega

theorem run_congr (r : Bool) (G G' : Blocks) (A : Adversary) (p : Bytes → Option Nat) (hf : Fine p) (h : Agree p G G') :
    run r G A p = run r G' A p ∧ shift r G A p = shift r G' A p := by
  induction A generalizing p with
  | stop guess => exact ⟨rfl, rfl⟩
  | start nonce next ih =>
    unfold run shift
    by_cases h1 : (p nonce).isSome ∨ nonce.length ≠ 12
    · simp only [if_pos h1]; exact ih _ _ hf h
    · simp only [if_neg h1]
      push Not at h1
      exact ih _ _ (hf.update h1.2 0) (h.fresh nonce (by simpa using h1.1))
  | send nonce msg msg' buffer next ih =>
    unfold run shift
    cases hp : p nonce with
    | none => exact ih _ _ hf h
    | some n =>
      simp only
      by_cases h1 : msg.length ≠ msg'.length ∨ 2 ^ 38 < n + msg.length ∨ msg.length ≠ buffer.length
      · simp only [if_pos h1]; exact ih _ _ hf h
      · simp only [if_neg h1]
        push Not at h1
        have hx := hf nonce n hp
        rw [kbs_agree h nonce hx n _ hp h1.2.1]
        obtain ⟨a, b⟩ := ih (some (xorBytes (if r then msg' else msg) (kbs (fn G' nonce) n msg.length)))
          (Function.update p nonce (some (n + msg.length))) (hf.update hx _) (h.used nonce n _ hp (by omega))
        exact ⟨a, by rw [b]⟩

theorem agree_add (p : Bytes → Option Nat) (G : Blocks) (d d' : Bytes → Nat → U8)
    (h : ∀ x i, (∀ n, p x = some n → n ≤ i) → d x i = d' x i) : Agree p (add G d) (add G d') := by
  intro x i hx hi hn
  rw [kb_add _ _ _ hx _ hi, kb_add _ _ _ hx _ hi, h x i hn]

theorem xor_getD (a b : Bytes) (i : Nat) (ha : i < a.length) (hb : i < b.length) :
    (xorBytes a b)[i]? = some (a.getD i 0 ^^^ b.getD i 0) := by
  unfold xorBytes
  rw [List.getElem?_zipWith, List.getElem?_eq_getElem ha, List.getElem?_eq_getElem hb, List.getD_eq_getElem?_getD,
    List.getD_eq_getElem?_getD, List.getElem?_eq_getElem ha, List.getElem?_eq_getElem hb]
  rfl

theorem answer_eq (r : Bool) (G : Blocks) (d : Bytes → Nat → U8) (x msg msg' : Bytes) (n : Nat) (hx : x.length = 12)
    (hl : msg.length = msg'.length) (hn : n + msg.length ≤ 2 ^ 38)
    (hd : ∀ i, n ≤ i → i < n + msg.length → d x i = msg.getD (i - n) 0 ^^^ msg'.getD (i - n) 0) :
    xorBytes (if (!r) then msg' else msg) (kbs (fn (add G d) x) n msg.length) =
      xorBytes (if r then msg' else msg) (kbs (fn G x) n msg.length) := by
  have hlen : ∀ b : Bool, (if b then msg' else msg).length = msg.length := by intro b; split <;> simp [hl]
  have hk : ∀ G', (kbs (fn G' x) n msg.length).length = msg.length := by intro G'; simp [kbs]
  apply List.ext_getElem?
  intro i
  by_cases hi : i < msg.length
  · rw [xor_getD _ _ _ (by rw [hlen]; exact hi) (by rw [hk]; exact hi),
      xor_getD _ _ _ (by rw [hlen]; exact hi) (by rw [hk]; exact hi)]
    have e : ∀ G', (kbs (fn G' x) n msg.length).getD i 0 = kb (fn G' x) (n + i) := by
      intro G'
      unfold kbs
      rw [List.getD_eq_getElem?_getD, List.getElem?_map, List.getElem?_range hi]
      rfl
    rw [e, e, kb_add _ _ _ hx _ (by omega), hd (n + i) (by omega) (by omega), Nat.add_sub_cancel_left]
    congr 1
    have h1 : ∀ u v k : U8, v ^^^ (k ^^^ (u ^^^ v)) = u ^^^ k := by intro u v k; grind
    have h2 : ∀ u v k : U8, u ^^^ (k ^^^ (u ^^^ v)) = v ^^^ k := by intro u v k; grind
    cases r
    · exact h1 _ _ _
    · exact h2 _ _ _
  · have hnone : ∀ a b : Bytes, b.length = msg.length → (xorBytes a b)[i]? = none := by
      intro a b hb
      rw [List.getElem?_eq_none_iff, xorBytes_length, hb]
      omega
    rw [hnone _ _ (hk _), hnone _ _ (hk _)]

/-- Exchanging the messages and shifting the keystream changes nothing for the adversary. -/
theorem run_shift (r : Bool) (G : Blocks) (A : Adversary) (p : Bytes → Option Nat) (hf : Fine p) :
    run (!r) (add G (shift r G A p)) A p = run r G A p ∧
    shift (!r) (add G (shift r G A p)) A p = shift r G A p := by
  induction A generalizing p with
  | stop guess => exact ⟨rfl, rfl⟩
  | start nonce next ih =>
    rw [run, run, shift, shift]
    by_cases h1 : (p nonce).isSome ∨ nonce.length ≠ 12
    · simp only [if_pos h1]; exact ih _ _ hf
    · simp only [if_neg h1]
      push Not at h1
      exact ih _ _ (hf.update h1.2 0)
  | send nonce msg msg' buffer next ih =>
    rw [run, run, shift, shift]
    cases hp : p nonce with
    | none => exact ih _ _ hf
    | some n =>
      simp only
      by_cases h1 : msg.length ≠ msg'.length ∨ 2 ^ 38 < n + msg.length ∨ msg.length ≠ buffer.length
      · simp only [if_pos h1]; exact ih _ _ hf
      · simp only [if_neg h1]
        push Not at h1
        have hx := hf nonce n hp
        have hf' := hf.update hx (n + msg.length)
        set ans := xorBytes (if r then msg' else msg) (kbs (fn G nonce) n msg.length) with hans
        set p' := Function.update p nonce (some (n + msg.length)) with hp'
        set d' := shift r G (next (some ans)) p' with hd'
        set d : Bytes → Nat → U8 := fun x i =>
          if x = nonce ∧ n ≤ i ∧ i < n + msg.length then msg.getD (i - n) 0 ^^^ msg'.getD (i - n) 0 else d' x i with hd
        have ha : xorBytes (if (!r) then msg' else msg) (kbs (fn (add G d) nonce) n msg.length) = ans :=
          answer_eq r G d nonce msg msg' n hx h1.1 h1.2.1 fun i h2 h3 => if_pos ⟨rfl, h2, h3⟩
        rw [ha]
        have hag : Agree p' (add G d) (add G d') := by
          refine agree_add _ _ _ _ fun x i hn => ?_
          rw [hd]; simp only
          rw [if_neg]
          rintro ⟨rfl, h2, h3⟩
          have := hn _ (Function.update_self ..)
          omega
        obtain ⟨a, b⟩ := run_congr (!r) (add G d) (add G d') (next (some ans)) p' hf' hag
        obtain ⟨a', b'⟩ := ih (some ans) p' hf'
        refine ⟨a.trans a', ?_⟩
        rw [b, b']

theorem add_inj {G G' : Blocks} {d : Bytes → Nat → U8} (h : add G d = add G' d) : G = G' := by
  funext x c j
  have := congrFun (congrFun (congrFun h x) c) j
  unfold add at this
  exact (BitVec.xor_left_inj _).mp this

end CryptoPure.Proofs.StreamIdeal
