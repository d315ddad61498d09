import Verif.Proofs.Prime
import Mathlib.Data.Nat.Prime.Basic
import Mathlib.GroupTheory.OrderOfElement
import Mathlib.FieldTheory.Finite.Basic

/-! # Primality of the group orders: `L` (Ed25519 and X25519) and the corresponding prime for the twist

Pocklington's criterion, with certificates checked by the kernel. -/

namespace CryptoPure.Prime

/-- Pocklington's criterion with one prime factor above the square root. -/
theorem pocklington {n q m a b : Nat} (hq : q.Prime) (hn : n = q * m + 1) (hqq : n < q * q) (hb : n < 2 ^ 256)
    (h1 : powMod n 256 a (q * m) 1 = 1) (h2 : (powMod n 256 a m 1 + (n - 1)) * b % n = 1) : n.Prime := by
  have hq2 := hq.two_le
  have hm : m ≠ 0 := by
    rintro rfl
    rw [mul_zero, zero_add] at hn
    rw [hn, Nat.mod_one] at h2
    exact absurd h2 (by norm_num)
  have hm0 : 0 < m := Nat.pos_of_ne_zero hm
  have hlt : q * m < 2 ^ 256 := by omega
  have hle : m ≤ q * m := Nat.le_mul_of_pos_left m hq.pos
  have hn1 : 1 < n := by omega
  rw [powMod_eq _ _ _ _ _ hlt, one_mul] at h1
  rw [powMod_eq _ _ _ _ _ (lt_of_le_of_lt hle hlt), one_mul] at h2
  by_contra hnp
  have hr := Nat.minFac_prime (n := n) (by omega)
  have hrd := Nat.minFac_dvd n
  have hrs := Nat.minFac_sq_le_self (n := n) (by omega) hnp
  generalize hrr : n.minFac = r at *
  have : Fact r.Prime := ⟨hr⟩
  have : Fact q.Prime := ⟨hq⟩
  have hnr : ((n : Nat) : ZMod r) = 0 := (ZMod.natCast_eq_zero_iff _ _).mpr hrd
  have red : ∀ x : Nat, ((x % n : Nat) : ZMod r) = ((x : Nat) : ZMod r) := by
    intro x
    conv_rhs => rw [← Nat.div_add_mod x n]
    rw [Nat.cast_add, Nat.cast_mul, hnr, zero_mul, zero_add]
  have e1 : ((a : ZMod r) ^ m) ^ q = 1 := by
    have := red (a ^ (q * m))
    rw [h1, Nat.cast_one, Nat.cast_pow] at this
    rw [← pow_mul, mul_comm m q, ← this]
  have e2 : (a : ZMod r) ^ m ≠ 1 := by
    intro h
    have := red ((a ^ m % n + (n - 1)) * b)
    rw [h2, Nat.cast_one, Nat.cast_mul, Nat.cast_add, red, Nat.cast_pow, h, Nat.cast_sub (by omega), hnr, Nat.cast_one,
      zero_sub, add_neg_cancel, zero_mul] at this
    exact one_ne_zero this
  have e3 : orderOf ((a : ZMod r) ^ m) = q := orderOf_eq_prime e1 e2
  have e4 : (a : ZMod r) ^ m ≠ 0 := by
    intro h
    rw [h, zero_pow hq.ne_zero] at e1
    exact zero_ne_one e1
  have e5 : q ∣ r - 1 := by
    rw [← e3]
    exact orderOf_dvd_of_pow_eq_one (ZMod.pow_card_sub_one_eq_one e4)
  have := hr.two_le
  have e6 := Nat.le_of_dvd (by omega) e5
  have e7 : q < r := by omega
  have e8 : q * q < r * r := Nat.mul_lt_mul'' e7 e7
  rw [sq] at hrs
  omega

theorem prime_1257559732178653 : Nat.Prime 1257559732178653 := by
  refine lucas _ 2 [2, 2, 3, 7, 23, 531581, 1224481] (by norm_num) ?_ (by norm_num) (by norm_num) (by decide +kernel) (by decide +kernel)
  · simp only [List.forall_mem_cons, List.not_mem_nil, false_imp_iff, implies_true, and_true]
    exact ⟨(by norm_num), (by norm_num), (by norm_num), (by norm_num), (by norm_num), (by norm_num), (by norm_num)⟩

theorem prime_4434155615661930479 : Nat.Prime 4434155615661930479 :=
  pocklington (q := 1257559732178653) (m := 3526) (a := 2)
    (b := 1010501025739283171)
    prime_1257559732178653 (by norm_num) (by norm_num) (by norm_num) (by decide +kernel) (by decide +kernel)

theorem prime_172054593956031949258510691 : Nat.Prime 172054593956031949258510691 :=
  pocklington (q := 4434155615661930479) (m := 38802110) (a := 2)
    (b := 154275350521713489305385904)
    prime_4434155615661930479 (by norm_num) (by norm_num) (by norm_num) (by decide +kernel) (by decide +kernel)

theorem prime_19757330305831588566944191468367130476339 : Nat.Prime 19757330305831588566944191468367130476339 :=
  pocklington (q := 172054593956031949258510691) (m := 114831751082918) (a := 2)
    (b := 16371654433361644093796961727196399386194)
    prime_172054593956031949258510691 (by norm_num) (by norm_num) (by norm_num) (by decide +kernel) (by decide +kernel)

theorem prime_276602624281642239937218680557139826668747 : Nat.Prime 276602624281642239937218680557139826668747 :=
  pocklington (q := 19757330305831588566944191468367130476339) (m := 14) (a := 2)
    (b := 94074944912245044309966580483695483989395)
    prime_19757330305831588566944191468367130476339 (by norm_num) (by norm_num) (by norm_num) (by decide +kernel) (by decide +kernel)

theorem prime_7237005577332262213973186563042994240857116359379907606001950938285454250989 : Nat.Prime 7237005577332262213973186563042994240857116359379907606001950938285454250989 :=
  pocklington (q := 276602624281642239937218680557139826668747) (m := 26163907866482859529727157400808004) (a := 2)
    (b := 2233364593245673852815932892735013076939656528578070433728021143254617821614)
    prime_276602624281642239937218680557139826668747 (by norm_num) (by norm_num) (by norm_num) (by decide +kernel) (by decide +kernel)

theorem prime_5171003929967 : Nat.Prime 5171003929967 := by
  refine lucas _ 5 [2, 7, 31, 181, 2281, 28859] (by norm_num) ?_ (by norm_num) (by norm_num) (by decide +kernel) (by decide +kernel)
  · simp only [List.forall_mem_cons, List.not_mem_nil, false_imp_iff, implies_true, and_true]
    exact ⟨(by norm_num), (by norm_num), (by norm_num), (by norm_num), (by norm_num), (by norm_num)⟩

theorem prime_22561162540501040539 : Nat.Prime 22561162540501040539 :=
  pocklington (q := 5171003929967) (m := 4363014) (a := 2)
    (b := 10911148973215549673)
    prime_5171003929967 (by norm_num) (by norm_num) (by norm_num) (by decide +kernel) (by decide +kernel)

theorem prime_1013266244677 : Nat.Prime 1013266244677 := by
  refine lucas _ 2 [2, 2, 3, 7, 383, 3911, 8053] (by norm_num) ?_ (by norm_num) (by norm_num) (by decide +kernel) (by decide +kernel)
  · simp only [List.forall_mem_cons, List.not_mem_nil, false_imp_iff, implies_true, and_true]
    exact ⟨(by norm_num), (by norm_num), (by norm_num), (by norm_num), (by norm_num), (by norm_num), (by norm_num)⟩

theorem prime_743104567 : Nat.Prime 743104567 := by
  refine lucas _ 6 [2, 3, 3, 3637, 11351] (by norm_num) ?_ (by norm_num) (by norm_num) (by decide +kernel) (by decide +kernel)
  · simp only [List.forall_mem_cons, List.not_mem_nil, false_imp_iff, implies_true, and_true]
    exact ⟨(by norm_num), (by norm_num), (by norm_num), (by norm_num), (by norm_num)⟩

theorem prime_203852586375664218368381551393371968928013 : Nat.Prime 203852586375664218368381551393371968928013 := by
  refine lucas _ 2 [2, 2, 3, 743104567, 1013266244677, 22561162540501040539] (by norm_num) ?_ (by norm_num) (by norm_num) (by decide +kernel) (by decide +kernel)
  · simp only [List.forall_mem_cons, List.not_mem_nil, false_imp_iff, implies_true, and_true]
    exact ⟨(by norm_num), (by norm_num), (by norm_num), prime_743104567, prime_1013266244677, prime_22561162540501040539⟩

theorem prime_104719073621178708975837602950775180438320278101 : Nat.Prime 104719073621178708975837602950775180438320278101 :=
  pocklington (q := 203852586375664218368381551393371968928013) (m := 513700) (a := 2)
    (b := 90084448839335833881019754118450260906209787307)
    prime_203852586375664218368381551393371968928013 (by norm_num) (by norm_num) (by norm_num) (by decide +kernel) (by decide +kernel)

theorem prime_27413359092552162435694767700453926735143482401279781 : Nat.Prime 27413359092552162435694767700453926735143482401279781 :=
  pocklington (q := 104719073621178708975837602950775180438320278101) (m := 261780) (a := 2)
    (b := 4031111370769809914916647399004588060065488295890678)
    prime_104719073621178708975837602950775180438320278101 (by norm_num) (by norm_num) (by norm_num) (by decide +kernel) (by decide +kernel)

theorem prime_14474011154664524427946373126085988481603263447650325797860494125407373907997 : Nat.Prime 14474011154664524427946373126085988481603263447650325797860494125407373907997 :=
  pocklington (q := 27413359092552162435694767700453926735143482401279781) (m := 527991155910437724961516) (a := 2)
    (b := 8307753089984235906883625319683110648166756904703804161871045904830952184079)
    prime_27413359092552162435694767700453926735143482401279781 (by norm_num) (by norm_num) (by norm_num) (by decide +kernel) (by decide +kernel)

end CryptoPure.Prime
