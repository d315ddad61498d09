import Verif.Props.SealedBox
import Verif.Proofs.Boxes

/-! # C158: many sealed boxes for one receiver -/

namespace CryptoPure.Props.ManyBoxes
open CryptoPure.Model CryptoPure.Props CryptoPure.Props.SealedBox Game BoxGame Distinguisher Proofs.Boxes

instance : Nonempty SecretKey := ⟨⟨zeros 32, by decide⟩⟩

/-- **Many sealed boxes (with ChaCha20-Poly1305 of the crate) show nothing but the lengths of the messages**, not even to an attacker who chooses each pair of messages after seeing the boxes
before, and has any other boxes opened in between: `q` times what can be said about one box. The attackers on one box are explicit (`lifted`): they make all boxes but one themselves. -/
theorem C158_chacha_secrecy (v : Variant) (m : Mode) (A : Bytes → Attacker) (q a l : Nat) (hl : l ≤ 2 ^ 34 - 16) (hA : ∀ pk, (A pk).Within authCount l a) (δ ε : ℚ)
    (hδ : ∀ before after right, agreementAdvantage v m 32 (agreementTester (chachaPoly m) right (lifted (box (chachaPoly m) v m) before after A)) ≤ δ)
    (hε : ∀ before after right, ∀ s : SecretKey × SecretKey,
      chachaAdvantage (chachaFromGuesser m right (cipherAttack (chachaPoly m) v m (lifted (box (chachaPoly m) v m) before after A) s.1.1 s.2.1)) ≤ ε) :
    |prob (fun s : SecretKey × (Fin q → SecretKey) => gameMany (box (chachaPoly m) v m) false A s.1.1 (List.ofFn fun i => (s.2 i).1) = true) -
      prob (fun s : SecretKey × (Fin q → SecretKey) => gameMany (box (chachaPoly m) v m) true A s.1.1 (List.ofFn fun i => (s.2 i).1) = true)| ≤
    q * (2 * δ + (2 * ε + 2 * (a * (1480 * l) / 2 ^ 106))) :=
  many (K := SecretKey) (box (chachaPoly m) v m) Subtype.val q A _ fun before after => by
    have h := C156_chacha_secrecy v m (lifted (box (chachaPoly m) v m) before after A) a l hl (fun pk => lift_within _ _ _ _ _ _ _ _ (hA pk)) (2 * ε) (fun s => by
      have h1 := hε before after false s
      have h2 := hε before after true s
      linarith)
    have h1 := hδ before after false
    have h2 := hδ before after true
    linarith

/-- **Many sealed boxes (with AES-GCM of the crate) show nothing but the lengths of the messages**, where `c` bounds the calls of AES for all boxes. -/
theorem C158_aes_secrecy (k : AesKind) (v : Variant) (m : Mode) (A : Bytes → Attacker) (q a l c : Nat) (hl : l ≤ 2 ^ 32 - 3) (hA : ∀ pk, (A pk).Within authCount l a)
    (hs : ∀ pk, (A pk).Costs gcmCost c) (δ ε : ℚ)
    (hδ : ∀ before after right, agreementAdvantage v m (4 * k.Nk) (agreementTester (aesGcm k m) right (lifted (box (aesGcm k m) v m) before after A)) ≤ δ)
    (hε : ∀ before after right, ∀ s : SecretKey × SecretKey,
      aesAdvantage k (aesFromGuesser m right (cipherAttack (aesGcm k m) v m (lifted (box (aesGcm k m) v m) before after A) s.1.1 s.2.1)) ≤ ε) :
    |prob (fun s : SecretKey × (Fin q → SecretKey) => gameMany (box (aesGcm k m) v m) false A s.1.1 (List.ofFn fun i => (s.2 i).1) = true) -
      prob (fun s : SecretKey × (Fin q → SecretKey) => gameMany (box (aesGcm k m) v m) true A s.1.1 (List.ofFn fun i => (s.2 i).1) = true)| ≤
    q * (2 * δ + (2 * ε + 2 * (a * l / 2 ^ 128) + c * (c - 1) / 2 ^ 128)) :=
  many (K := SecretKey) (box (aesGcm k m) v m) Subtype.val q A _ fun before after => by
    have h := C156_aes_secrecy k v m (lifted (box (aesGcm k m) v m) before after A) a l c hl (fun pk => lift_within _ _ _ _ _ _ _ _ (hA pk)) (fun pk => lift_costs _ _ _ _ _ _ _ _ (hs pk))
      (2 * ε) (fun s => by
        have h1 := hε before after false s
        have h2 := hε before after true s
        linarith)
    have h1 := hδ before after false
    have h2 := hδ before after true
    linarith

/-- The testers made of the attackers on one box ask for no more other keys than the attacker has boxes opened. -/
theorem C158_tester {n : Nat} (S : Scheme (Key n)) (v : Variant) (m : Mode) (right : Bool) (before after : List Bytes) (A : Bytes → Attacker) {blocks : Nat → Nat → Nat} {l a : Nat}
    (hA : ∀ pk, (A pk).Within blocks l a) (pk head : Bytes) (key : Key n) : (agreementTester S right (lifted (box S v m) before after A) pk head key).Asks a :=
  C156_tester right _ (fun pk => lift_within _ _ _ _ _ _ _ _ (hA pk)) pk head key

/-! ## Concrete cases -/

/-- Gets two boxes, has one made of both opened, and guesses from what comes out. -/
def mixBoxes (_ : Bytes) : Attacker :=
  .send [] [0] [1] fun
    | none => .stop false
    | some (head, ct, _) => .send [] [0] [1] fun
      | none => .stop false
      | some (_, _, t) => .receive [] (head, ct.take 1, t) fun r => .stop (r == some (some [1]))

theorem mixBoxes_within (pk : Bytes) : (mixBoxes pk).Within authCount 4 1 := by
  refine ⟨by decide, fun r => ?_⟩
  rcases r with _ | ⟨head, ct, t⟩
  · trivial
  · refine ⟨by decide, fun r => ?_⟩
    rcases r with _ | ⟨head', ct', t'⟩
    · trivial
    · refine ⟨?_, 0, rfl, fun _ => trivial⟩
      show authCount 0 (ct.take 1).length ≤ 4
      have : (ct.take 1).length ≤ 1 := List.length_take_le _ _
      unfold authCount
      omega

theorem mixBoxes_costs (pk : Bytes) : (mixBoxes pk).Costs gcmCost 9 := by
  refine ⟨9 - gcmCost 1, by decide, fun r => ?_⟩
  rcases r with _ | ⟨head, ct, t⟩
  · trivial
  · refine ⟨9 - gcmCost 1 - gcmCost 1, by decide, fun r => ?_⟩
    rcases r with _ | ⟨head', ct', t'⟩
    · trivial
    · refine ⟨9 - gcmCost 1 - gcmCost 1 - gcmCost (ct.take 1).length, ?_, fun _ => trivial⟩
      show 9 - gcmCost 1 - gcmCost 1 = gcmCost (ct.take 1).length + _
      have : (ct.take 1).length ≤ 1 := List.length_take_le _ _
      have h : gcmCost (ct.take 1).length ≤ 3 := by unfold gcmCost; omega
      have : gcmCost 1 = 3 := by decide
      omega

example (v : Variant) (m : Mode) := C158_chacha_secrecy v m mixBoxes 2 1 4 (by norm_num) mixBoxes_within

example (k : AesKind) (v : Variant) (m : Mode) := C158_aes_secrecy k v m mixBoxes 2 1 4 9 (by norm_num) mixBoxes_within mixBoxes_costs

example (v : Variant) (m : Mode) (x : Bytes) := C158_tester (n := 32) (chachaPoly m) v m true [x] [] mixBoxes mixBoxes_within

end CryptoPure.Props.ManyBoxes
