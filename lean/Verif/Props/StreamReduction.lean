import Verif.Spec.StreamTest
import Verif.Props.StreamIdeal
import Verif.Props.Reduction

/-! # C131: reading a raw ChaCha20 stream of the crate means breaking the ChaCha20 block function

For the code under a random key, with the distinguisher written out in Verif/Spec/StreamTest.lean. -/

namespace CryptoPure.Props
open CryptoPure.Model CryptoPure.Model.ChaCha20 StreamGame Distinguisher
open Game (prob)

attribute [local irreducible] CryptoPure.Model.ChaCha20.block setupState toBE

/-- The same blocks, byte by byte. -/
def blocksOf (F : ChaChaPoint → ChaChaBlock) : KeystreamBlocks := fun n c j => (F (n, c)).1.getD j.1 0

theorem ofFn_block (b : ChaChaBlock) : (List.ofFn fun j : Fin 64 => b.1.getD j.1 0) = b.1 := by
  apply List.ext_getElem
  · rw [List.length_ofFn, b.2]
  · intro i h1 h2
    rw [List.getElem_ofFn, List.getD_eq_getElem?_getD, List.getElem?_eq_getElem h2]
    rfl

/-- Blocks as lists and as functions. -/
def blocksEquiv : (ChaChaPoint → ChaChaBlock) ≃ KeystreamBlocks where
  toFun := blocksOf
  invFun G x := ⟨List.ofFn (G x.1 x.2), by simp⟩
  left_inv F := by
    funext x
    exact Subtype.ext (ofFn_block (F x))
  right_inv G := by
    funext n c j
    show (List.ofFn (G n c)).getD j.1 0 = _
    rw [List.getD_eq_getElem?_getD, List.getElem?_ofFn]
    simp

theorem kbs_blocksOf (F : ChaChaPoint → ChaChaBlock) (nonce : Bytes) (h : nonce.length = 12) (n len : Nat) :
    Proofs.StreamIdeal.kbs (Proofs.StreamIdeal.fn (blocksOf F) nonce) n len = keystream F ⟨nonce, h⟩ n len := by
  unfold Proofs.StreamIdeal.kbs keystream
  refine List.map_congr_left fun i _ => ?_
  rw [Proofs.StreamIdeal.kb_fn _ _ h]
  rfl

theorem keystream_congr (F F' : Point → Block) (nonce : {n : Bytes // n.length = 12}) (n len : Nat)
    (h : ∀ x ∈ blockPoints nonce n len, F x = F' x) : keystream F nonce n len = keystream F' nonce n len := by
  unfold keystream
  refine List.map_congr_left fun i hi => ?_
  rw [List.mem_range] at hi
  rw [h]
  unfold blockPoints
  refine List.mem_map.mpr ⟨(n + i) / 64 - n / 64, List.mem_range.mpr (by omega), ?_⟩
  rw [show n / 64 + ((n + i) / 64 - n / 64) = (n + i) / 64 by omega]

/-- Positions for all byte strings. -/
def everywhere (a : {n : Bytes // n.length = 12} → Option Nat) (x : Bytes) : Option Nat := if h : x.length = 12 then a ⟨x, h⟩ else none

theorem everywhere_update (a : {n : Bytes // n.length = 12} → Option Nat) (x : Bytes) (h : x.length = 12) (v : Option Nat) :
    everywhere (Function.update a ⟨x, h⟩ v) = Function.update (everywhere a) x v := by
  funext y
  by_cases e : y = x
  · subst e
    simp [everywhere, h]
  · rw [Function.update_of_ne e]
    unfold everywhere
    split
    · rw [Function.update_of_ne]
      simpa using e
    · rfl

theorem streamTest_run (right : Bool) (F : ChaChaPoint → ChaChaBlock) (A : Adversary) (a : {n : Bytes // n.length = 12} → Option Nat) :
    (StreamGame.guessTest right A a).run F = Proofs.StreamIdeal.run right (blocksOf F) A (everywhere a) := by
  induction A generalizing a with
  | stop g => rfl
  | start nonce next ih =>
    unfold StreamGame.guessTest Proofs.StreamIdeal.run
    by_cases h : nonce.length = 12
    · rw [dif_pos h]
      have e : everywhere a nonce = a ⟨nonce, h⟩ := by unfold everywhere; rw [dif_pos h]
      rw [e]
      by_cases hs : (a ⟨nonce, h⟩).isSome = true
      · rw [if_pos hs, if_pos (Or.inl hs : (a ⟨nonce, h⟩).isSome = true ∨ nonce.length ≠ 12), ih]
      · rw [if_neg hs, if_neg (by rintro (h1 | h1); exacts [hs h1, h1 h] : ¬ ((a ⟨nonce, h⟩).isSome = true ∨ nonce.length ≠ 12)),
          ih, everywhere_update]
    · rw [dif_neg h, if_pos (Or.inr h), ih]
  | send nonce msg msg' buffer next ih =>
    unfold StreamGame.guessTest Proofs.StreamIdeal.run
    by_cases h : nonce.length = 12
    · rw [dif_pos h]
      have e : everywhere a nonce = a ⟨nonce, h⟩ := by unfold everywhere; rw [dif_pos h]
      rw [e]
      cases ha : a ⟨nonce, h⟩ with
      | none => exact ih _ _
      | some n =>
        simp only []
        by_cases hc : msg.length = msg'.length ∧ n + msg.length ≤ 2 ^ 38 ∧ msg.length = buffer.length
        · rw [if_pos hc, if_neg (by push Not; exact hc :
            ¬ (msg.length ≠ msg'.length ∨ 2 ^ 38 < n + msg.length ∨ msg.length ≠ buffer.length)), askAll_run, ih,
            everywhere_update, kbs_blocksOf F nonce h,
            keystream_congr (table _) F _ _ _ (fun x hx => table_map F _ x hx)]
        · rw [if_neg hc, if_pos (by by_contra h'; push Not at h'; exact hc h' :
            msg.length ≠ msg'.length ∨ 2 ^ 38 < n + msg.length ∨ msg.length ≠ buffer.length), ih]
    · have e : everywhere a nonce = none := by unfold everywhere; rw [dif_neg h]
      rw [dif_neg h, e]
      exact ih _ _

/-- The distinguisher for the ChaCha20 block function made of an attack on raw streams. -/
def chachaFromReader (right : Bool) (A : Adversary) : Distinguisher ChaChaPoint ChaChaBlock :=
  StreamGame.guessTest right A fun _ => none

theorem everywhere_none : everywhere (fun _ => none) = fun _ => none := by
  funext x; unfold everywhere; split <;> rfl

theorem chachaFromReader_run (m : Mode) (right : Bool) (A : Adversary) (F : ChaChaPoint → ChaChaBlock) :
    (chachaFromReader right A).run F = play (streamScheme m) right (blocksOf F) A [] := by
  unfold chachaFromReader
  rw [streamTest_run, everywhere_none, streamScheme_eq, Proofs.StreamIdeal.play_eq m _ _ A [] (fun _ => none) ⟨by simp, by simp⟩]

/-- The distinguisher asks for no more blocks than the messages can touch. -/
theorem C131_distinguisher (right : Bool) (A : Adversary) (s : Nat) (hs : Sends A s) : (chachaFromReader right A).Asks s := by
  unfold chachaFromReader
  generalize (fun _ => none : {n : Bytes // n.length = 12} → Option Nat) = a
  induction A generalizing s a with
  | stop g => trivial
  | start nonce next ih =>
    unfold StreamGame.guessTest
    split
    · split
      · exact ih _ _ (hs _) _
      · exact ih _ _ (hs _) _
    · exact ih _ _ (hs _) _
  | send nonce msg msg' buffer next ih =>
    obtain ⟨s', rfl, h⟩ := hs
    unfold StreamGame.guessTest
    split
    · split
      · exact Asks.mono (ih _ _ (h _) _) (by omega)
      · split
        · refine Asks.mono (askAll_asks _ _ s' fun t => ih _ _ (h _) _) ?_
          unfold blockPoints
          rw [List.length_map, List.length_range]
          omega
        · exact Asks.mono (ih _ _ (h _) _) (by omega)
    · exact Asks.mono (ih _ _ (h _) _) (by omega)

/-- Run on the ChaCha20 block function under a key, the distinguisher reports how the attack on the streams of the crate under that
key ends. -/
theorem C131_runs (m : Mode) (right : Bool) (A : Adversary) (key : ChaChaKey) :
    (chachaFromReader right A).run (chachaFunction key) = play (chachaScheme m) right key.1 A [] := by
  rw [chachaFromReader_run m, C117_code_game m right key.1 key.2]
  rfl

/-- **Reading raw ChaCha20 streams of the crate under a random key.** An adaptive attack on any number of interleaved streams under
different nonces tells the first messages of its pairs from the second ones with at most the advantages with which the two
distinguishers made of it tell the ChaCha20 block function from a random function. -/
theorem C131_confidentiality (m : Mode) (A : Adversary) :
    |prob (fun key : ChaChaKey => play (chachaScheme m) false key.1 A [] = true) -
      prob (fun key : ChaChaKey => play (chachaScheme m) true key.1 A [] = true)| ≤
      chachaAdvantage (chachaFromReader false A) + chachaAdvantage (chachaFromReader true A) := by
  have e1 : ∀ right, prob (fun key : ChaChaKey => play (chachaScheme m) right key.1 A [] = true) =
      prob (fun key => (chachaFromReader right A).run (chachaFunction key) = true) := fun right =>
    prob_congr fun key => by rw [C131_runs m]
  have e2 : ∀ right, prob (fun G => play (streamScheme m) right G A [] = true) =
      prob (fun F : ChaChaPoint → ChaChaBlock => (chachaFromReader right A).run F = true) := by
    intro right
    rw [← Game.prob_equiv blocksEquiv]
    refine prob_congr fun F => ?_
    rw [chachaFromReader_run m]
    rfl
  have h1 := C117_hides m A
  rw [e2, e2] at h1
  rw [e1, e1]
  have h2 : ∀ right, |prob (fun key => (chachaFromReader right A).run (chachaFunction key) = true) -
    prob (fun F : ChaChaPoint → ChaChaBlock => (chachaFromReader right A).run F = true)| ≤
      chachaAdvantage (chachaFromReader right A) := fun right => le_refl _
  have h3 := abs_le.mp (h2 false)
  have h4 := abs_le.mp (h2 true)
  rw [abs_le]
  constructor <;> linarith [h3.1, h3.2, h4.1, h4.2]

/-! ## A concrete case -/

theorem exampleAdversary_sends : Sends exampleAdversary 6 := by
  refine fun _ => fun _ => ⟨4, by decide, fun a => ?_⟩
  have h : ((a.getD []).take 1).length ≤ 1 := by simp
  refine ⟨4 - ((((a.getD []).take 1).length + 63) / 64 + 1), by omega, fun _ => fun _ => ⟨4 - ((((a.getD []).take 1).length + 63) / 64 + 1) - 2, ?_, fun _ => trivial⟩⟩
  simp only [List.length_cons, List.length_nil]
  omega

example : (chachaFromReader true exampleAdversary).Asks 6 := C131_distinguisher true _ 6 exampleAdversary_sends

/-- The distinguisher of the example does ask, and its verdict depends on the answers and on the side. -/
example : (chachaFromReader false exampleAdversary).run (fun _ => default) = true := by decide +kernel
example : (chachaFromReader true exampleAdversary).run (fun _ => default) = false := by decide +kernel

end CryptoPure.Props
