import Verif.Model.SL

/-! Scalar-arithmetic straight-line code of /repo/src/ed25519.rs

Generated by tools/gen_sl.py from the Rust text, one assignment per Rust assignment, in order. `x += e` is
`x ≔ x + e`; `i64::from` is value preserving and leaves no trace but the operation's type; constants `1 << k` are
written out. -/

namespace CryptoPure.Model
open CryptoPure.SL

namespace ScMuladd

/-- Local `a0`, src/ed25519.rs:340. -/ abbrev a0 : Nat := 0
/-- Local `a1`, src/ed25519.rs:341. -/ abbrev a1 : Nat := 1
/-- Local `a2`, src/ed25519.rs:342. -/ abbrev a2 : Nat := 2
/-- Local `a3`, src/ed25519.rs:343. -/ abbrev a3 : Nat := 3
/-- Local `a4`, src/ed25519.rs:344. -/ abbrev a4 : Nat := 4
/-- Local `a5`, src/ed25519.rs:345. -/ abbrev a5 : Nat := 5
/-- Local `a6`, src/ed25519.rs:346. -/ abbrev a6 : Nat := 6
/-- Local `a7`, src/ed25519.rs:347. -/ abbrev a7 : Nat := 7
/-- Local `a8`, src/ed25519.rs:348. -/ abbrev a8 : Nat := 8
/-- Local `a9`, src/ed25519.rs:349. -/ abbrev a9 : Nat := 9
/-- Local `a10`, src/ed25519.rs:350. -/ abbrev a10 : Nat := 10
/-- Local `a11`, src/ed25519.rs:351. -/ abbrev a11 : Nat := 11
/-- Local `b0`, src/ed25519.rs:352. -/ abbrev b0 : Nat := 12
/-- Local `b1`, src/ed25519.rs:353. -/ abbrev b1 : Nat := 13
/-- Local `b2`, src/ed25519.rs:354. -/ abbrev b2 : Nat := 14
/-- Local `b3`, src/ed25519.rs:355. -/ abbrev b3 : Nat := 15
/-- Local `b4`, src/ed25519.rs:356. -/ abbrev b4 : Nat := 16
/-- Local `b5`, src/ed25519.rs:357. -/ abbrev b5 : Nat := 17
/-- Local `b6`, src/ed25519.rs:358. -/ abbrev b6 : Nat := 18
/-- Local `b7`, src/ed25519.rs:359. -/ abbrev b7 : Nat := 19
/-- Local `b8`, src/ed25519.rs:360. -/ abbrev b8 : Nat := 20
/-- Local `b9`, src/ed25519.rs:361. -/ abbrev b9 : Nat := 21
/-- Local `b10`, src/ed25519.rs:362. -/ abbrev b10 : Nat := 22
/-- Local `b11`, src/ed25519.rs:363. -/ abbrev b11 : Nat := 23
/-- Local `c0`, src/ed25519.rs:364. -/ abbrev c0 : Nat := 24
/-- Local `c1`, src/ed25519.rs:365. -/ abbrev c1 : Nat := 25
/-- Local `c2`, src/ed25519.rs:366. -/ abbrev c2 : Nat := 26
/-- Local `c3`, src/ed25519.rs:367. -/ abbrev c3 : Nat := 27
/-- Local `c4`, src/ed25519.rs:368. -/ abbrev c4 : Nat := 28
/-- Local `c5`, src/ed25519.rs:369. -/ abbrev c5 : Nat := 29
/-- Local `c6`, src/ed25519.rs:370. -/ abbrev c6 : Nat := 30
/-- Local `c7`, src/ed25519.rs:371. -/ abbrev c7 : Nat := 31
/-- Local `c8`, src/ed25519.rs:372. -/ abbrev c8 : Nat := 32
/-- Local `c9`, src/ed25519.rs:373. -/ abbrev c9 : Nat := 33
/-- Local `c10`, src/ed25519.rs:374. -/ abbrev c10 : Nat := 34
/-- Local `c11`, src/ed25519.rs:375. -/ abbrev c11 : Nat := 35
/-- Local `s0`, src/ed25519.rs:376. -/ abbrev s0 : Nat := 36
/-- Local `s1`, src/ed25519.rs:377. -/ abbrev s1 : Nat := 37
/-- Local `s2`, src/ed25519.rs:378. -/ abbrev s2 : Nat := 38
/-- Local `s3`, src/ed25519.rs:379. -/ abbrev s3 : Nat := 39
/-- Local `s4`, src/ed25519.rs:380. -/ abbrev s4 : Nat := 40
/-- Local `s5`, src/ed25519.rs:381. -/ abbrev s5 : Nat := 41
/-- Local `s6`, src/ed25519.rs:382. -/ abbrev s6 : Nat := 42
/-- Local `s7`, src/ed25519.rs:383. -/ abbrev s7 : Nat := 43
/-- Local `s8`, src/ed25519.rs:384. -/ abbrev s8 : Nat := 44
/-- Local `s9`, src/ed25519.rs:385. -/ abbrev s9 : Nat := 45
/-- Local `s10`, src/ed25519.rs:386. -/ abbrev s10 : Nat := 46
/-- Local `s11`, src/ed25519.rs:387. -/ abbrev s11 : Nat := 47
/-- Local `s12`, src/ed25519.rs:388. -/ abbrev s12 : Nat := 48
/-- Local `s13`, src/ed25519.rs:389. -/ abbrev s13 : Nat := 49
/-- Local `s14`, src/ed25519.rs:390. -/ abbrev s14 : Nat := 50
/-- Local `s15`, src/ed25519.rs:391. -/ abbrev s15 : Nat := 51
/-- Local `s16`, src/ed25519.rs:392. -/ abbrev s16 : Nat := 52
/-- Local `s17`, src/ed25519.rs:393. -/ abbrev s17 : Nat := 53
/-- Local `s18`, src/ed25519.rs:394. -/ abbrev s18 : Nat := 54
/-- Local `s19`, src/ed25519.rs:395. -/ abbrev s19 : Nat := 55
/-- Local `s20`, src/ed25519.rs:396. -/ abbrev s20 : Nat := 56
/-- Local `s21`, src/ed25519.rs:397. -/ abbrev s21 : Nat := 57
/-- Local `s22`, src/ed25519.rs:398. -/ abbrev s22 : Nat := 58
/-- Local `s23`, src/ed25519.rs:399. -/ abbrev s23 : Nat := 59
/-- Local `carry0`, src/ed25519.rs:400. -/ abbrev carry0 : Nat := 60
/-- Local `carry2`, src/ed25519.rs:402. -/ abbrev carry2 : Nat := 61
/-- Local `carry4`, src/ed25519.rs:404. -/ abbrev carry4 : Nat := 62
/-- Local `carry6`, src/ed25519.rs:406. -/ abbrev carry6 : Nat := 63
/-- Local `carry8`, src/ed25519.rs:408. -/ abbrev carry8 : Nat := 64
/-- Local `carry10`, src/ed25519.rs:410. -/ abbrev carry10 : Nat := 65
/-- Local `carry12`, src/ed25519.rs:412. -/ abbrev carry12 : Nat := 66
/-- Local `carry14`, src/ed25519.rs:414. -/ abbrev carry14 : Nat := 67
/-- Local `carry16`, src/ed25519.rs:416. -/ abbrev carry16 : Nat := 68
/-- Local `carry18`, src/ed25519.rs:418. -/ abbrev carry18 : Nat := 69
/-- Local `carry20`, src/ed25519.rs:420. -/ abbrev carry20 : Nat := 70
/-- Local `carry22`, src/ed25519.rs:422. -/ abbrev carry22 : Nat := 71
/-- Local `carry1`, src/ed25519.rs:401. -/ abbrev carry1 : Nat := 72
/-- Local `carry3`, src/ed25519.rs:403. -/ abbrev carry3 : Nat := 73
/-- Local `carry5`, src/ed25519.rs:405. -/ abbrev carry5 : Nat := 74
/-- Local `carry7`, src/ed25519.rs:407. -/ abbrev carry7 : Nat := 75
/-- Local `carry9`, src/ed25519.rs:409. -/ abbrev carry9 : Nat := 76
/-- Local `carry11`, src/ed25519.rs:411. -/ abbrev carry11 : Nat := 77
/-- Local `carry13`, src/ed25519.rs:413. -/ abbrev carry13 : Nat := 78
/-- Local `carry15`, src/ed25519.rs:415. -/ abbrev carry15 : Nat := 79
/-- Local `carry17`, src/ed25519.rs:417. -/ abbrev carry17 : Nat := 80
/-- Local `carry19`, src/ed25519.rs:419. -/ abbrev carry19 : Nat := 81
/-- Local `carry21`, src/ed25519.rs:421. -/ abbrev carry21 : Nat := 82
/-- Number of slots: the locals above, src/ed25519.rs:338-837. -/
def size : Nat := 83

/-- `sc_muladd`, src/ed25519.rs:424-837, after the loads and before the stores. Part 1. -/
def part1 : List Stmt := [
  s0 ≔ c0 +₆₄ a0 *₆₄ b0,
  s1 ≔ c1 +₆₄ a0 *₆₄ b1 +₆₄ a1 *₆₄ b0,
  s2 ≔ c2 +₆₄ a0 *₆₄ b2 +₆₄ a1 *₆₄ b1 +₆₄ a2 *₆₄ b0,
  s3 ≔ c3 +₆₄ a0 *₆₄ b3 +₆₄ a1 *₆₄ b2 +₆₄ a2 *₆₄ b1 +₆₄ a3 *₆₄ b0,
  s4 ≔ c4 +₆₄ a0 *₆₄ b4 +₆₄ a1 *₆₄ b3 +₆₄ a2 *₆₄ b2 +₆₄ a3 *₆₄ b1 +₆₄ a4 *₆₄ b0,
  s5 ≔ c5 +₆₄ a0 *₆₄ b5 +₆₄ a1 *₆₄ b4 +₆₄ a2 *₆₄ b3 +₆₄ a3 *₆₄ b2 +₆₄ a4 *₆₄ b1 +₆₄ a5 *₆₄ b0,
  s6 ≔ c6 +₆₄ a0 *₆₄ b6 +₆₄ a1 *₆₄ b5 +₆₄ a2 *₆₄ b4 +₆₄ a3 *₆₄ b3 +₆₄ a4 *₆₄ b2 +₆₄ a5 *₆₄ b1 +₆₄ a6 *₆₄ b0,
  s7 ≔ c7 +₆₄ a0 *₆₄ b7 +₆₄ a1 *₆₄ b6 +₆₄ a2 *₆₄ b5 +₆₄ a3 *₆₄ b4 +₆₄ a4 *₆₄ b3 +₆₄ a5 *₆₄ b2 +₆₄ a6 *₆₄ b1 +₆₄ a7 *₆₄ b0,
  s8 ≔ c8 +₆₄ a0 *₆₄ b8 +₆₄ a1 *₆₄ b7 +₆₄ a2 *₆₄ b6 +₆₄ a3 *₆₄ b5 +₆₄ a4 *₆₄ b4 +₆₄ a5 *₆₄ b3 +₆₄ a6 *₆₄ b2 +₆₄ a7 *₆₄ b1 +₆₄ a8 *₆₄ b0,
  s9 ≔ c9 +₆₄ a0 *₆₄ b9 +₆₄ a1 *₆₄ b8 +₆₄ a2 *₆₄ b7 +₆₄ a3 *₆₄ b6 +₆₄ a4 *₆₄ b5 +₆₄ a5 *₆₄ b4 +₆₄ a6 *₆₄ b3 +₆₄ a7 *₆₄ b2 +₆₄ a8 *₆₄ b1 +₆₄ a9 *₆₄ b0,
  s10 ≔ c10 +₆₄ a0 *₆₄ b10 +₆₄ a1 *₆₄ b9 +₆₄ a2 *₆₄ b8 +₆₄ a3 *₆₄ b7 +₆₄ a4 *₆₄ b6 +₆₄ a5 *₆₄ b5 +₆₄ a6 *₆₄ b4 +₆₄ a7 *₆₄ b3 +₆₄ a8 *₆₄ b2 +₆₄ a9 *₆₄ b1 +₆₄ a10 *₆₄ b0,
  s11 ≔ c11 +₆₄ a0 *₆₄ b11 +₆₄ a1 *₆₄ b10 +₆₄ a2 *₆₄ b9 +₆₄ a3 *₆₄ b8 +₆₄ a4 *₆₄ b7 +₆₄ a5 *₆₄ b6 +₆₄ a6 *₆₄ b5 +₆₄ a7 *₆₄ b4 +₆₄ a8 *₆₄ b3 +₆₄ a9 *₆₄ b2 +₆₄ a10 *₆₄ b1 +₆₄ a11 *₆₄ b0,
  s12 ≔ a1 *₆₄ b11 +₆₄ a2 *₆₄ b10 +₆₄ a3 *₆₄ b9 +₆₄ a4 *₆₄ b8 +₆₄ a5 *₆₄ b7 +₆₄ a6 *₆₄ b6 +₆₄ a7 *₆₄ b5 +₆₄ a8 *₆₄ b4 +₆₄ a9 *₆₄ b3 +₆₄ a10 *₆₄ b2 +₆₄ a11 *₆₄ b1,
  s13 ≔ a2 *₆₄ b11 +₆₄ a3 *₆₄ b10 +₆₄ a4 *₆₄ b9 +₆₄ a5 *₆₄ b8 +₆₄ a6 *₆₄ b7 +₆₄ a7 *₆₄ b6 +₆₄ a8 *₆₄ b5 +₆₄ a9 *₆₄ b4 +₆₄ a10 *₆₄ b3 +₆₄ a11 *₆₄ b2,
  s14 ≔ a3 *₆₄ b11 +₆₄ a4 *₆₄ b10 +₆₄ a5 *₆₄ b9 +₆₄ a6 *₆₄ b8 +₆₄ a7 *₆₄ b7 +₆₄ a8 *₆₄ b6 +₆₄ a9 *₆₄ b5 +₆₄ a10 *₆₄ b4 +₆₄ a11 *₆₄ b3,
  s15 ≔ a4 *₆₄ b11 +₆₄ a5 *₆₄ b10 +₆₄ a6 *₆₄ b9 +₆₄ a7 *₆₄ b8 +₆₄ a8 *₆₄ b7 +₆₄ a9 *₆₄ b6 +₆₄ a10 *₆₄ b5 +₆₄ a11 *₆₄ b4,
  s16 ≔ a5 *₆₄ b11 +₆₄ a6 *₆₄ b10 +₆₄ a7 *₆₄ b9 +₆₄ a8 *₆₄ b8 +₆₄ a9 *₆₄ b7 +₆₄ a10 *₆₄ b6 +₆₄ a11 *₆₄ b5,
  s17 ≔ a6 *₆₄ b11 +₆₄ a7 *₆₄ b10 +₆₄ a8 *₆₄ b9 +₆₄ a9 *₆₄ b8 +₆₄ a10 *₆₄ b7 +₆₄ a11 *₆₄ b6,
  s18 ≔ a7 *₆₄ b11 +₆₄ a8 *₆₄ b10 +₆₄ a9 *₆₄ b9 +₆₄ a10 *₆₄ b8 +₆₄ a11 *₆₄ b7,
  s19 ≔ a8 *₆₄ b11 +₆₄ a9 *₆₄ b10 +₆₄ a10 *₆₄ b9 +₆₄ a11 *₆₄ b8,
  s20 ≔ a9 *₆₄ b11 +₆₄ a10 *₆₄ b10 +₆₄ a11 *₆₄ b9,
  s21 ≔ a10 *₆₄ b11 +₆₄ a11 *₆₄ b10,
  s22 ≔ a11 *₆₄ b11,
  s23 ≔ 0]

/-- `sc_muladd`, src/ed25519.rs:424-837, after the loads and before the stores. Part 2. -/
def part2 : List Stmt := [
  carry0 ≔ s0 +₆₄ 1048576 ≫ 21,
  s1 ≔ s1 +₆₄ carry0,
  s0 ≔ s0 -₆₄ (carry0 ≪₆₄ 21),
  carry2 ≔ s2 +₆₄ 1048576 ≫ 21,
  s3 ≔ s3 +₆₄ carry2,
  s2 ≔ s2 -₆₄ (carry2 ≪₆₄ 21),
  carry4 ≔ s4 +₆₄ 1048576 ≫ 21,
  s5 ≔ s5 +₆₄ carry4,
  s4 ≔ s4 -₆₄ (carry4 ≪₆₄ 21),
  carry6 ≔ s6 +₆₄ 1048576 ≫ 21,
  s7 ≔ s7 +₆₄ carry6,
  s6 ≔ s6 -₆₄ (carry6 ≪₆₄ 21),
  carry8 ≔ s8 +₆₄ 1048576 ≫ 21,
  s9 ≔ s9 +₆₄ carry8,
  s8 ≔ s8 -₆₄ (carry8 ≪₆₄ 21),
  carry10 ≔ s10 +₆₄ 1048576 ≫ 21,
  s11 ≔ s11 +₆₄ carry10,
  s10 ≔ s10 -₆₄ (carry10 ≪₆₄ 21),
  carry12 ≔ s12 +₆₄ 1048576 ≫ 21,
  s13 ≔ s13 +₆₄ carry12,
  s12 ≔ s12 -₆₄ (carry12 ≪₆₄ 21),
  carry14 ≔ s14 +₆₄ 1048576 ≫ 21,
  s15 ≔ s15 +₆₄ carry14,
  s14 ≔ s14 -₆₄ (carry14 ≪₆₄ 21),
  carry16 ≔ s16 +₆₄ 1048576 ≫ 21,
  s17 ≔ s17 +₆₄ carry16,
  s16 ≔ s16 -₆₄ (carry16 ≪₆₄ 21),
  carry18 ≔ s18 +₆₄ 1048576 ≫ 21,
  s19 ≔ s19 +₆₄ carry18,
  s18 ≔ s18 -₆₄ (carry18 ≪₆₄ 21),
  carry20 ≔ s20 +₆₄ 1048576 ≫ 21,
  s21 ≔ s21 +₆₄ carry20,
  s20 ≔ s20 -₆₄ (carry20 ≪₆₄ 21),
  carry22 ≔ s22 +₆₄ 1048576 ≫ 21,
  s23 ≔ s23 +₆₄ carry22,
  s22 ≔ s22 -₆₄ (carry22 ≪₆₄ 21),
  carry1 ≔ s1 +₆₄ 1048576 ≫ 21,
  s2 ≔ s2 +₆₄ carry1,
  s1 ≔ s1 -₆₄ (carry1 ≪₆₄ 21),
  carry3 ≔ s3 +₆₄ 1048576 ≫ 21,
  s4 ≔ s4 +₆₄ carry3,
  s3 ≔ s3 -₆₄ (carry3 ≪₆₄ 21),
  carry5 ≔ s5 +₆₄ 1048576 ≫ 21,
  s6 ≔ s6 +₆₄ carry5,
  s5 ≔ s5 -₆₄ (carry5 ≪₆₄ 21),
  carry7 ≔ s7 +₆₄ 1048576 ≫ 21,
  s8 ≔ s8 +₆₄ carry7,
  s7 ≔ s7 -₆₄ (carry7 ≪₆₄ 21),
  carry9 ≔ s9 +₆₄ 1048576 ≫ 21,
  s10 ≔ s10 +₆₄ carry9,
  s9 ≔ s9 -₆₄ (carry9 ≪₆₄ 21),
  carry11 ≔ s11 +₆₄ 1048576 ≫ 21,
  s12 ≔ s12 +₆₄ carry11,
  s11 ≔ s11 -₆₄ (carry11 ≪₆₄ 21),
  carry13 ≔ s13 +₆₄ 1048576 ≫ 21,
  s14 ≔ s14 +₆₄ carry13,
  s13 ≔ s13 -₆₄ (carry13 ≪₆₄ 21),
  carry15 ≔ s15 +₆₄ 1048576 ≫ 21,
  s16 ≔ s16 +₆₄ carry15,
  s15 ≔ s15 -₆₄ (carry15 ≪₆₄ 21),
  carry17 ≔ s17 +₆₄ 1048576 ≫ 21,
  s18 ≔ s18 +₆₄ carry17,
  s17 ≔ s17 -₆₄ (carry17 ≪₆₄ 21),
  carry19 ≔ s19 +₆₄ 1048576 ≫ 21,
  s20 ≔ s20 +₆₄ carry19,
  s19 ≔ s19 -₆₄ (carry19 ≪₆₄ 21),
  carry21 ≔ s21 +₆₄ 1048576 ≫ 21,
  s22 ≔ s22 +₆₄ carry21,
  s21 ≔ s21 -₆₄ (carry21 ≪₆₄ 21),
  s11 ≔ s11 +₆₄ s23 *₆₄ 666643,
  s12 ≔ s12 +₆₄ s23 *₆₄ 470296,
  s13 ≔ s13 +₆₄ s23 *₆₄ 654183,
  s14 ≔ s14 -₆₄ s23 *₆₄ 997805,
  s15 ≔ s15 +₆₄ s23 *₆₄ 136657,
  s16 ≔ s16 -₆₄ s23 *₆₄ 683901,
  s10 ≔ s10 +₆₄ s22 *₆₄ 666643,
  s11 ≔ s11 +₆₄ s22 *₆₄ 470296,
  s12 ≔ s12 +₆₄ s22 *₆₄ 654183,
  s13 ≔ s13 -₆₄ s22 *₆₄ 997805,
  s14 ≔ s14 +₆₄ s22 *₆₄ 136657,
  s15 ≔ s15 -₆₄ s22 *₆₄ 683901,
  s9 ≔ s9 +₆₄ s21 *₆₄ 666643,
  s10 ≔ s10 +₆₄ s21 *₆₄ 470296,
  s11 ≔ s11 +₆₄ s21 *₆₄ 654183,
  s12 ≔ s12 -₆₄ s21 *₆₄ 997805,
  s13 ≔ s13 +₆₄ s21 *₆₄ 136657,
  s14 ≔ s14 -₆₄ s21 *₆₄ 683901,
  s8 ≔ s8 +₆₄ s20 *₆₄ 666643,
  s9 ≔ s9 +₆₄ s20 *₆₄ 470296,
  s10 ≔ s10 +₆₄ s20 *₆₄ 654183,
  s11 ≔ s11 -₆₄ s20 *₆₄ 997805,
  s12 ≔ s12 +₆₄ s20 *₆₄ 136657,
  s13 ≔ s13 -₆₄ s20 *₆₄ 683901,
  s7 ≔ s7 +₆₄ s19 *₆₄ 666643,
  s8 ≔ s8 +₆₄ s19 *₆₄ 470296,
  s9 ≔ s9 +₆₄ s19 *₆₄ 654183,
  s10 ≔ s10 -₆₄ s19 *₆₄ 997805,
  s11 ≔ s11 +₆₄ s19 *₆₄ 136657,
  s12 ≔ s12 -₆₄ s19 *₆₄ 683901,
  s6 ≔ s6 +₆₄ s18 *₆₄ 666643,
  s7 ≔ s7 +₆₄ s18 *₆₄ 470296,
  s8 ≔ s8 +₆₄ s18 *₆₄ 654183,
  s9 ≔ s9 -₆₄ s18 *₆₄ 997805,
  s10 ≔ s10 +₆₄ s18 *₆₄ 136657,
  s11 ≔ s11 -₆₄ s18 *₆₄ 683901,
  carry6 ≔ s6 +₆₄ 1048576 ≫ 21,
  s7 ≔ s7 +₆₄ carry6,
  s6 ≔ s6 -₆₄ (carry6 ≪₆₄ 21),
  carry8 ≔ s8 +₆₄ 1048576 ≫ 21,
  s9 ≔ s9 +₆₄ carry8,
  s8 ≔ s8 -₆₄ (carry8 ≪₆₄ 21),
  carry10 ≔ s10 +₆₄ 1048576 ≫ 21,
  s11 ≔ s11 +₆₄ carry10,
  s10 ≔ s10 -₆₄ (carry10 ≪₆₄ 21),
  carry12 ≔ s12 +₆₄ 1048576 ≫ 21,
  s13 ≔ s13 +₆₄ carry12,
  s12 ≔ s12 -₆₄ (carry12 ≪₆₄ 21),
  carry14 ≔ s14 +₆₄ 1048576 ≫ 21,
  s15 ≔ s15 +₆₄ carry14,
  s14 ≔ s14 -₆₄ (carry14 ≪₆₄ 21),
  carry16 ≔ s16 +₆₄ 1048576 ≫ 21,
  s17 ≔ s17 +₆₄ carry16,
  s16 ≔ s16 -₆₄ (carry16 ≪₆₄ 21),
  carry7 ≔ s7 +₆₄ 1048576 ≫ 21,
  s8 ≔ s8 +₆₄ carry7,
  s7 ≔ s7 -₆₄ (carry7 ≪₆₄ 21),
  carry9 ≔ s9 +₆₄ 1048576 ≫ 21,
  s10 ≔ s10 +₆₄ carry9,
  s9 ≔ s9 -₆₄ (carry9 ≪₆₄ 21),
  carry11 ≔ s11 +₆₄ 1048576 ≫ 21,
  s12 ≔ s12 +₆₄ carry11,
  s11 ≔ s11 -₆₄ (carry11 ≪₆₄ 21),
  carry13 ≔ s13 +₆₄ 1048576 ≫ 21,
  s14 ≔ s14 +₆₄ carry13,
  s13 ≔ s13 -₆₄ (carry13 ≪₆₄ 21),
  carry15 ≔ s15 +₆₄ 1048576 ≫ 21,
  s16 ≔ s16 +₆₄ carry15,
  s15 ≔ s15 -₆₄ (carry15 ≪₆₄ 21),
  s5 ≔ s5 +₆₄ s17 *₆₄ 666643,
  s6 ≔ s6 +₆₄ s17 *₆₄ 470296,
  s7 ≔ s7 +₆₄ s17 *₆₄ 654183,
  s8 ≔ s8 -₆₄ s17 *₆₄ 997805,
  s9 ≔ s9 +₆₄ s17 *₆₄ 136657,
  s10 ≔ s10 -₆₄ s17 *₆₄ 683901,
  s4 ≔ s4 +₆₄ s16 *₆₄ 666643,
  s5 ≔ s5 +₆₄ s16 *₆₄ 470296,
  s6 ≔ s6 +₆₄ s16 *₆₄ 654183,
  s7 ≔ s7 -₆₄ s16 *₆₄ 997805,
  s8 ≔ s8 +₆₄ s16 *₆₄ 136657,
  s9 ≔ s9 -₆₄ s16 *₆₄ 683901,
  s3 ≔ s3 +₆₄ s15 *₆₄ 666643,
  s4 ≔ s4 +₆₄ s15 *₆₄ 470296,
  s5 ≔ s5 +₆₄ s15 *₆₄ 654183,
  s6 ≔ s6 -₆₄ s15 *₆₄ 997805,
  s7 ≔ s7 +₆₄ s15 *₆₄ 136657,
  s8 ≔ s8 -₆₄ s15 *₆₄ 683901,
  s2 ≔ s2 +₆₄ s14 *₆₄ 666643,
  s3 ≔ s3 +₆₄ s14 *₆₄ 470296,
  s4 ≔ s4 +₆₄ s14 *₆₄ 654183,
  s5 ≔ s5 -₆₄ s14 *₆₄ 997805,
  s6 ≔ s6 +₆₄ s14 *₆₄ 136657,
  s7 ≔ s7 -₆₄ s14 *₆₄ 683901,
  s1 ≔ s1 +₆₄ s13 *₆₄ 666643,
  s2 ≔ s2 +₆₄ s13 *₆₄ 470296,
  s3 ≔ s3 +₆₄ s13 *₆₄ 654183,
  s4 ≔ s4 -₆₄ s13 *₆₄ 997805,
  s5 ≔ s5 +₆₄ s13 *₆₄ 136657,
  s6 ≔ s6 -₆₄ s13 *₆₄ 683901,
  s0 ≔ s0 +₆₄ s12 *₆₄ 666643,
  s1 ≔ s1 +₆₄ s12 *₆₄ 470296,
  s2 ≔ s2 +₆₄ s12 *₆₄ 654183,
  s3 ≔ s3 -₆₄ s12 *₆₄ 997805,
  s4 ≔ s4 +₆₄ s12 *₆₄ 136657,
  s5 ≔ s5 -₆₄ s12 *₆₄ 683901,
  s12 ≔ 0,
  carry0 ≔ s0 +₆₄ 1048576 ≫ 21,
  s1 ≔ s1 +₆₄ carry0,
  s0 ≔ s0 -₆₄ (carry0 ≪₆₄ 21),
  carry2 ≔ s2 +₆₄ 1048576 ≫ 21,
  s3 ≔ s3 +₆₄ carry2,
  s2 ≔ s2 -₆₄ (carry2 ≪₆₄ 21),
  carry4 ≔ s4 +₆₄ 1048576 ≫ 21,
  s5 ≔ s5 +₆₄ carry4,
  s4 ≔ s4 -₆₄ (carry4 ≪₆₄ 21),
  carry6 ≔ s6 +₆₄ 1048576 ≫ 21,
  s7 ≔ s7 +₆₄ carry6,
  s6 ≔ s6 -₆₄ (carry6 ≪₆₄ 21),
  carry8 ≔ s8 +₆₄ 1048576 ≫ 21,
  s9 ≔ s9 +₆₄ carry8,
  s8 ≔ s8 -₆₄ (carry8 ≪₆₄ 21),
  carry10 ≔ s10 +₆₄ 1048576 ≫ 21,
  s11 ≔ s11 +₆₄ carry10,
  s10 ≔ s10 -₆₄ (carry10 ≪₆₄ 21),
  carry1 ≔ s1 +₆₄ 1048576 ≫ 21,
  s2 ≔ s2 +₆₄ carry1,
  s1 ≔ s1 -₆₄ (carry1 ≪₆₄ 21),
  carry3 ≔ s3 +₆₄ 1048576 ≫ 21,
  s4 ≔ s4 +₆₄ carry3,
  s3 ≔ s3 -₆₄ (carry3 ≪₆₄ 21),
  carry5 ≔ s5 +₆₄ 1048576 ≫ 21,
  s6 ≔ s6 +₆₄ carry5,
  s5 ≔ s5 -₆₄ (carry5 ≪₆₄ 21),
  carry7 ≔ s7 +₆₄ 1048576 ≫ 21,
  s8 ≔ s8 +₆₄ carry7,
  s7 ≔ s7 -₆₄ (carry7 ≪₆₄ 21),
  carry9 ≔ s9 +₆₄ 1048576 ≫ 21,
  s10 ≔ s10 +₆₄ carry9,
  s9 ≔ s9 -₆₄ (carry9 ≪₆₄ 21),
  carry11 ≔ s11 +₆₄ 1048576 ≫ 21,
  s12 ≔ s12 +₆₄ carry11,
  s11 ≔ s11 -₆₄ (carry11 ≪₆₄ 21),
  s0 ≔ s0 +₆₄ s12 *₆₄ 666643,
  s1 ≔ s1 +₆₄ s12 *₆₄ 470296,
  s2 ≔ s2 +₆₄ s12 *₆₄ 654183,
  s3 ≔ s3 -₆₄ s12 *₆₄ 997805,
  s4 ≔ s4 +₆₄ s12 *₆₄ 136657,
  s5 ≔ s5 -₆₄ s12 *₆₄ 683901,
  s12 ≔ 0]

/-- `sc_muladd`, src/ed25519.rs:424-837, after the loads and before the stores. Part 3. -/
def part3 : List Stmt := [
  carry0 ≔ s0 ≫ 21,
  s1 ≔ s1 +₆₄ carry0,
  s0 ≔ s0 -₆₄ (carry0 ≪₆₄ 21),
  carry1 ≔ s1 ≫ 21,
  s2 ≔ s2 +₆₄ carry1,
  s1 ≔ s1 -₆₄ (carry1 ≪₆₄ 21),
  carry2 ≔ s2 ≫ 21,
  s3 ≔ s3 +₆₄ carry2,
  s2 ≔ s2 -₆₄ (carry2 ≪₆₄ 21),
  carry3 ≔ s3 ≫ 21,
  s4 ≔ s4 +₆₄ carry3,
  s3 ≔ s3 -₆₄ (carry3 ≪₆₄ 21),
  carry4 ≔ s4 ≫ 21,
  s5 ≔ s5 +₆₄ carry4,
  s4 ≔ s4 -₆₄ (carry4 ≪₆₄ 21),
  carry5 ≔ s5 ≫ 21,
  s6 ≔ s6 +₆₄ carry5,
  s5 ≔ s5 -₆₄ (carry5 ≪₆₄ 21),
  carry6 ≔ s6 ≫ 21,
  s7 ≔ s7 +₆₄ carry6,
  s6 ≔ s6 -₆₄ (carry6 ≪₆₄ 21),
  carry7 ≔ s7 ≫ 21,
  s8 ≔ s8 +₆₄ carry7,
  s7 ≔ s7 -₆₄ (carry7 ≪₆₄ 21),
  carry8 ≔ s8 ≫ 21,
  s9 ≔ s9 +₆₄ carry8,
  s8 ≔ s8 -₆₄ (carry8 ≪₆₄ 21),
  carry9 ≔ s9 ≫ 21,
  s10 ≔ s10 +₆₄ carry9,
  s9 ≔ s9 -₆₄ (carry9 ≪₆₄ 21),
  carry10 ≔ s10 ≫ 21,
  s11 ≔ s11 +₆₄ carry10,
  s10 ≔ s10 -₆₄ (carry10 ≪₆₄ 21),
  carry11 ≔ s11 ≫ 21,
  s12 ≔ s12 +₆₄ carry11,
  s11 ≔ s11 -₆₄ (carry11 ≪₆₄ 21)]

/-- `sc_muladd`, src/ed25519.rs:424-837, after the loads and before the stores. Part 4. -/
def part4 : List Stmt := [
  s0 ≔ s0 +₆₄ s12 *₆₄ 666643,
  s1 ≔ s1 +₆₄ s12 *₆₄ 470296,
  s2 ≔ s2 +₆₄ s12 *₆₄ 654183,
  s3 ≔ s3 -₆₄ s12 *₆₄ 997805,
  s4 ≔ s4 +₆₄ s12 *₆₄ 136657,
  s5 ≔ s5 -₆₄ s12 *₆₄ 683901]

/-- `sc_muladd`, src/ed25519.rs:424-837, after the loads and before the stores. Part 5. -/
def part5 : List Stmt := [
  carry0 ≔ s0 ≫ 21,
  s1 ≔ s1 +₆₄ carry0,
  s0 ≔ s0 -₆₄ (carry0 ≪₆₄ 21),
  carry1 ≔ s1 ≫ 21,
  s2 ≔ s2 +₆₄ carry1,
  s1 ≔ s1 -₆₄ (carry1 ≪₆₄ 21),
  carry2 ≔ s2 ≫ 21,
  s3 ≔ s3 +₆₄ carry2,
  s2 ≔ s2 -₆₄ (carry2 ≪₆₄ 21),
  carry3 ≔ s3 ≫ 21,
  s4 ≔ s4 +₆₄ carry3,
  s3 ≔ s3 -₆₄ (carry3 ≪₆₄ 21),
  carry4 ≔ s4 ≫ 21,
  s5 ≔ s5 +₆₄ carry4,
  s4 ≔ s4 -₆₄ (carry4 ≪₆₄ 21),
  carry5 ≔ s5 ≫ 21,
  s6 ≔ s6 +₆₄ carry5,
  s5 ≔ s5 -₆₄ (carry5 ≪₆₄ 21),
  carry6 ≔ s6 ≫ 21,
  s7 ≔ s7 +₆₄ carry6,
  s6 ≔ s6 -₆₄ (carry6 ≪₆₄ 21),
  carry7 ≔ s7 ≫ 21,
  s8 ≔ s8 +₆₄ carry7,
  s7 ≔ s7 -₆₄ (carry7 ≪₆₄ 21),
  carry8 ≔ s8 ≫ 21,
  s9 ≔ s9 +₆₄ carry8,
  s8 ≔ s8 -₆₄ (carry8 ≪₆₄ 21),
  carry9 ≔ s9 ≫ 21,
  s10 ≔ s10 +₆₄ carry9,
  s9 ≔ s9 -₆₄ (carry9 ≪₆₄ 21),
  carry10 ≔ s10 ≫ 21,
  s11 ≔ s11 +₆₄ carry10,
  s10 ≔ s10 -₆₄ (carry10 ≪₆₄ 21)]

/-- `sc_muladd`, src/ed25519.rs:424-837, after the loads and before the stores. -/
def prog : List Stmt := part1 ++ part2 ++ part3 ++ part4 ++ part5

end ScMuladd

namespace ScReduce

/-- Local `s0`, src/ed25519.rs:873. -/ abbrev s0 : Nat := 0
/-- Local `s1`, src/ed25519.rs:874. -/ abbrev s1 : Nat := 1
/-- Local `s2`, src/ed25519.rs:875. -/ abbrev s2 : Nat := 2
/-- Local `s3`, src/ed25519.rs:876. -/ abbrev s3 : Nat := 3
/-- Local `s4`, src/ed25519.rs:877. -/ abbrev s4 : Nat := 4
/-- Local `s5`, src/ed25519.rs:878. -/ abbrev s5 : Nat := 5
/-- Local `s6`, src/ed25519.rs:879. -/ abbrev s6 : Nat := 6
/-- Local `s7`, src/ed25519.rs:880. -/ abbrev s7 : Nat := 7
/-- Local `s8`, src/ed25519.rs:881. -/ abbrev s8 : Nat := 8
/-- Local `s9`, src/ed25519.rs:882. -/ abbrev s9 : Nat := 9
/-- Local `s10`, src/ed25519.rs:883. -/ abbrev s10 : Nat := 10
/-- Local `s11`, src/ed25519.rs:884. -/ abbrev s11 : Nat := 11
/-- Local `s12`, src/ed25519.rs:885. -/ abbrev s12 : Nat := 12
/-- Local `s13`, src/ed25519.rs:886. -/ abbrev s13 : Nat := 13
/-- Local `s14`, src/ed25519.rs:887. -/ abbrev s14 : Nat := 14
/-- Local `s15`, src/ed25519.rs:888. -/ abbrev s15 : Nat := 15
/-- Local `s16`, src/ed25519.rs:889. -/ abbrev s16 : Nat := 16
/-- Local `s17`, src/ed25519.rs:890. -/ abbrev s17 : Nat := 17
/-- Local `s18`, src/ed25519.rs:891. -/ abbrev s18 : Nat := 18
/-- Local `s19`, src/ed25519.rs:892. -/ abbrev s19 : Nat := 19
/-- Local `s20`, src/ed25519.rs:893. -/ abbrev s20 : Nat := 20
/-- Local `s21`, src/ed25519.rs:894. -/ abbrev s21 : Nat := 21
/-- Local `s22`, src/ed25519.rs:895. -/ abbrev s22 : Nat := 22
/-- Local `s23`, src/ed25519.rs:896. -/ abbrev s23 : Nat := 23
/-- Local `carry6`, src/ed25519.rs:903. -/ abbrev carry6 : Nat := 24
/-- Local `carry8`, src/ed25519.rs:905. -/ abbrev carry8 : Nat := 25
/-- Local `carry10`, src/ed25519.rs:907. -/ abbrev carry10 : Nat := 26
/-- Local `carry12`, src/ed25519.rs:909. -/ abbrev carry12 : Nat := 27
/-- Local `carry14`, src/ed25519.rs:911. -/ abbrev carry14 : Nat := 28
/-- Local `carry16`, src/ed25519.rs:913. -/ abbrev carry16 : Nat := 29
/-- Local `carry7`, src/ed25519.rs:904. -/ abbrev carry7 : Nat := 30
/-- Local `carry9`, src/ed25519.rs:906. -/ abbrev carry9 : Nat := 31
/-- Local `carry11`, src/ed25519.rs:908. -/ abbrev carry11 : Nat := 32
/-- Local `carry13`, src/ed25519.rs:910. -/ abbrev carry13 : Nat := 33
/-- Local `carry15`, src/ed25519.rs:912. -/ abbrev carry15 : Nat := 34
/-- Local `carry0`, src/ed25519.rs:897. -/ abbrev carry0 : Nat := 35
/-- Local `carry2`, src/ed25519.rs:899. -/ abbrev carry2 : Nat := 36
/-- Local `carry4`, src/ed25519.rs:901. -/ abbrev carry4 : Nat := 37
/-- Local `carry1`, src/ed25519.rs:898. -/ abbrev carry1 : Nat := 38
/-- Local `carry3`, src/ed25519.rs:900. -/ abbrev carry3 : Nat := 39
/-- Local `carry5`, src/ed25519.rs:902. -/ abbrev carry5 : Nat := 40
/-- Number of slots: the locals above, src/ed25519.rs:872-1170. -/
def size : Nat := 41

/-- `sc_reduce`, src/ed25519.rs:915-1170, after the loads and before the stores. Part 1. -/
def part1 : List Stmt := [
  s11 ≔ s11 +₆₄ s23 *₆₄ 666643,
  s12 ≔ s12 +₆₄ s23 *₆₄ 470296,
  s13 ≔ s13 +₆₄ s23 *₆₄ 654183,
  s14 ≔ s14 -₆₄ s23 *₆₄ 997805,
  s15 ≔ s15 +₆₄ s23 *₆₄ 136657,
  s16 ≔ s16 -₆₄ s23 *₆₄ 683901,
  s10 ≔ s10 +₆₄ s22 *₆₄ 666643,
  s11 ≔ s11 +₆₄ s22 *₆₄ 470296,
  s12 ≔ s12 +₆₄ s22 *₆₄ 654183,
  s13 ≔ s13 -₆₄ s22 *₆₄ 997805,
  s14 ≔ s14 +₆₄ s22 *₆₄ 136657,
  s15 ≔ s15 -₆₄ s22 *₆₄ 683901,
  s9 ≔ s9 +₆₄ s21 *₆₄ 666643,
  s10 ≔ s10 +₆₄ s21 *₆₄ 470296,
  s11 ≔ s11 +₆₄ s21 *₆₄ 654183,
  s12 ≔ s12 -₆₄ s21 *₆₄ 997805,
  s13 ≔ s13 +₆₄ s21 *₆₄ 136657,
  s14 ≔ s14 -₆₄ s21 *₆₄ 683901,
  s8 ≔ s8 +₆₄ s20 *₆₄ 666643,
  s9 ≔ s9 +₆₄ s20 *₆₄ 470296,
  s10 ≔ s10 +₆₄ s20 *₆₄ 654183,
  s11 ≔ s11 -₆₄ s20 *₆₄ 997805,
  s12 ≔ s12 +₆₄ s20 *₆₄ 136657,
  s13 ≔ s13 -₆₄ s20 *₆₄ 683901,
  s7 ≔ s7 +₆₄ s19 *₆₄ 666643,
  s8 ≔ s8 +₆₄ s19 *₆₄ 470296,
  s9 ≔ s9 +₆₄ s19 *₆₄ 654183,
  s10 ≔ s10 -₆₄ s19 *₆₄ 997805,
  s11 ≔ s11 +₆₄ s19 *₆₄ 136657,
  s12 ≔ s12 -₆₄ s19 *₆₄ 683901,
  s6 ≔ s6 +₆₄ s18 *₆₄ 666643,
  s7 ≔ s7 +₆₄ s18 *₆₄ 470296,
  s8 ≔ s8 +₆₄ s18 *₆₄ 654183,
  s9 ≔ s9 -₆₄ s18 *₆₄ 997805,
  s10 ≔ s10 +₆₄ s18 *₆₄ 136657,
  s11 ≔ s11 -₆₄ s18 *₆₄ 683901,
  carry6 ≔ s6 +₆₄ 1048576 ≫ 21,
  s7 ≔ s7 +₆₄ carry6,
  s6 ≔ s6 -₆₄ (carry6 ≪₆₄ 21),
  carry8 ≔ s8 +₆₄ 1048576 ≫ 21,
  s9 ≔ s9 +₆₄ carry8,
  s8 ≔ s8 -₆₄ (carry8 ≪₆₄ 21),
  carry10 ≔ s10 +₆₄ 1048576 ≫ 21,
  s11 ≔ s11 +₆₄ carry10,
  s10 ≔ s10 -₆₄ (carry10 ≪₆₄ 21),
  carry12 ≔ s12 +₆₄ 1048576 ≫ 21,
  s13 ≔ s13 +₆₄ carry12,
  s12 ≔ s12 -₆₄ (carry12 ≪₆₄ 21),
  carry14 ≔ s14 +₆₄ 1048576 ≫ 21,
  s15 ≔ s15 +₆₄ carry14,
  s14 ≔ s14 -₆₄ (carry14 ≪₆₄ 21),
  carry16 ≔ s16 +₆₄ 1048576 ≫ 21,
  s17 ≔ s17 +₆₄ carry16,
  s16 ≔ s16 -₆₄ (carry16 ≪₆₄ 21),
  carry7 ≔ s7 +₆₄ 1048576 ≫ 21,
  s8 ≔ s8 +₆₄ carry7,
  s7 ≔ s7 -₆₄ (carry7 ≪₆₄ 21),
  carry9 ≔ s9 +₆₄ 1048576 ≫ 21,
  s10 ≔ s10 +₆₄ carry9,
  s9 ≔ s9 -₆₄ (carry9 ≪₆₄ 21),
  carry11 ≔ s11 +₆₄ 1048576 ≫ 21,
  s12 ≔ s12 +₆₄ carry11,
  s11 ≔ s11 -₆₄ (carry11 ≪₆₄ 21),
  carry13 ≔ s13 +₆₄ 1048576 ≫ 21,
  s14 ≔ s14 +₆₄ carry13,
  s13 ≔ s13 -₆₄ (carry13 ≪₆₄ 21),
  carry15 ≔ s15 +₆₄ 1048576 ≫ 21,
  s16 ≔ s16 +₆₄ carry15,
  s15 ≔ s15 -₆₄ (carry15 ≪₆₄ 21),
  s5 ≔ s5 +₆₄ s17 *₆₄ 666643,
  s6 ≔ s6 +₆₄ s17 *₆₄ 470296,
  s7 ≔ s7 +₆₄ s17 *₆₄ 654183,
  s8 ≔ s8 -₆₄ s17 *₆₄ 997805,
  s9 ≔ s9 +₆₄ s17 *₆₄ 136657,
  s10 ≔ s10 -₆₄ s17 *₆₄ 683901,
  s4 ≔ s4 +₆₄ s16 *₆₄ 666643,
  s5 ≔ s5 +₆₄ s16 *₆₄ 470296,
  s6 ≔ s6 +₆₄ s16 *₆₄ 654183,
  s7 ≔ s7 -₆₄ s16 *₆₄ 997805,
  s8 ≔ s8 +₆₄ s16 *₆₄ 136657,
  s9 ≔ s9 -₆₄ s16 *₆₄ 683901,
  s3 ≔ s3 +₆₄ s15 *₆₄ 666643,
  s4 ≔ s4 +₆₄ s15 *₆₄ 470296,
  s5 ≔ s5 +₆₄ s15 *₆₄ 654183,
  s6 ≔ s6 -₆₄ s15 *₆₄ 997805,
  s7 ≔ s7 +₆₄ s15 *₆₄ 136657,
  s8 ≔ s8 -₆₄ s15 *₆₄ 683901,
  s2 ≔ s2 +₆₄ s14 *₆₄ 666643,
  s3 ≔ s3 +₆₄ s14 *₆₄ 470296,
  s4 ≔ s4 +₆₄ s14 *₆₄ 654183,
  s5 ≔ s5 -₆₄ s14 *₆₄ 997805,
  s6 ≔ s6 +₆₄ s14 *₆₄ 136657,
  s7 ≔ s7 -₆₄ s14 *₆₄ 683901,
  s1 ≔ s1 +₆₄ s13 *₆₄ 666643,
  s2 ≔ s2 +₆₄ s13 *₆₄ 470296,
  s3 ≔ s3 +₆₄ s13 *₆₄ 654183,
  s4 ≔ s4 -₆₄ s13 *₆₄ 997805,
  s5 ≔ s5 +₆₄ s13 *₆₄ 136657,
  s6 ≔ s6 -₆₄ s13 *₆₄ 683901,
  s0 ≔ s0 +₆₄ s12 *₆₄ 666643,
  s1 ≔ s1 +₆₄ s12 *₆₄ 470296,
  s2 ≔ s2 +₆₄ s12 *₆₄ 654183,
  s3 ≔ s3 -₆₄ s12 *₆₄ 997805,
  s4 ≔ s4 +₆₄ s12 *₆₄ 136657,
  s5 ≔ s5 -₆₄ s12 *₆₄ 683901,
  s12 ≔ 0,
  carry0 ≔ s0 +₆₄ 1048576 ≫ 21,
  s1 ≔ s1 +₆₄ carry0,
  s0 ≔ s0 -₆₄ (carry0 ≪₆₄ 21),
  carry2 ≔ s2 +₆₄ 1048576 ≫ 21,
  s3 ≔ s3 +₆₄ carry2,
  s2 ≔ s2 -₆₄ (carry2 ≪₆₄ 21),
  carry4 ≔ s4 +₆₄ 1048576 ≫ 21,
  s5 ≔ s5 +₆₄ carry4,
  s4 ≔ s4 -₆₄ (carry4 ≪₆₄ 21),
  carry6 ≔ s6 +₆₄ 1048576 ≫ 21,
  s7 ≔ s7 +₆₄ carry6,
  s6 ≔ s6 -₆₄ (carry6 ≪₆₄ 21),
  carry8 ≔ s8 +₆₄ 1048576 ≫ 21,
  s9 ≔ s9 +₆₄ carry8,
  s8 ≔ s8 -₆₄ (carry8 ≪₆₄ 21),
  carry10 ≔ s10 +₆₄ 1048576 ≫ 21,
  s11 ≔ s11 +₆₄ carry10,
  s10 ≔ s10 -₆₄ (carry10 ≪₆₄ 21),
  carry1 ≔ s1 +₆₄ 1048576 ≫ 21,
  s2 ≔ s2 +₆₄ carry1,
  s1 ≔ s1 -₆₄ (carry1 ≪₆₄ 21),
  carry3 ≔ s3 +₆₄ 1048576 ≫ 21,
  s4 ≔ s4 +₆₄ carry3,
  s3 ≔ s3 -₆₄ (carry3 ≪₆₄ 21),
  carry5 ≔ s5 +₆₄ 1048576 ≫ 21,
  s6 ≔ s6 +₆₄ carry5,
  s5 ≔ s5 -₆₄ (carry5 ≪₆₄ 21),
  carry7 ≔ s7 +₆₄ 1048576 ≫ 21,
  s8 ≔ s8 +₆₄ carry7,
  s7 ≔ s7 -₆₄ (carry7 ≪₆₄ 21),
  carry9 ≔ s9 +₆₄ 1048576 ≫ 21,
  s10 ≔ s10 +₆₄ carry9,
  s9 ≔ s9 -₆₄ (carry9 ≪₆₄ 21),
  carry11 ≔ s11 +₆₄ 1048576 ≫ 21,
  s12 ≔ s12 +₆₄ carry11,
  s11 ≔ s11 -₆₄ (carry11 ≪₆₄ 21),
  s0 ≔ s0 +₆₄ s12 *₆₄ 666643,
  s1 ≔ s1 +₆₄ s12 *₆₄ 470296,
  s2 ≔ s2 +₆₄ s12 *₆₄ 654183,
  s3 ≔ s3 -₆₄ s12 *₆₄ 997805,
  s4 ≔ s4 +₆₄ s12 *₆₄ 136657,
  s5 ≔ s5 -₆₄ s12 *₆₄ 683901,
  s12 ≔ 0]

/-- `sc_reduce`, src/ed25519.rs:915-1170, after the loads and before the stores. Part 2. -/
def part2 : List Stmt := [
  carry0 ≔ s0 ≫ 21,
  s1 ≔ s1 +₆₄ carry0,
  s0 ≔ s0 -₆₄ (carry0 ≪₆₄ 21),
  carry1 ≔ s1 ≫ 21,
  s2 ≔ s2 +₆₄ carry1,
  s1 ≔ s1 -₆₄ (carry1 ≪₆₄ 21),
  carry2 ≔ s2 ≫ 21,
  s3 ≔ s3 +₆₄ carry2,
  s2 ≔ s2 -₆₄ (carry2 ≪₆₄ 21),
  carry3 ≔ s3 ≫ 21,
  s4 ≔ s4 +₆₄ carry3,
  s3 ≔ s3 -₆₄ (carry3 ≪₆₄ 21),
  carry4 ≔ s4 ≫ 21,
  s5 ≔ s5 +₆₄ carry4,
  s4 ≔ s4 -₆₄ (carry4 ≪₆₄ 21),
  carry5 ≔ s5 ≫ 21,
  s6 ≔ s6 +₆₄ carry5,
  s5 ≔ s5 -₆₄ (carry5 ≪₆₄ 21),
  carry6 ≔ s6 ≫ 21,
  s7 ≔ s7 +₆₄ carry6,
  s6 ≔ s6 -₆₄ (carry6 ≪₆₄ 21),
  carry7 ≔ s7 ≫ 21,
  s8 ≔ s8 +₆₄ carry7,
  s7 ≔ s7 -₆₄ (carry7 ≪₆₄ 21),
  carry8 ≔ s8 ≫ 21,
  s9 ≔ s9 +₆₄ carry8,
  s8 ≔ s8 -₆₄ (carry8 ≪₆₄ 21),
  carry9 ≔ s9 ≫ 21,
  s10 ≔ s10 +₆₄ carry9,
  s9 ≔ s9 -₆₄ (carry9 ≪₆₄ 21),
  carry10 ≔ s10 ≫ 21,
  s11 ≔ s11 +₆₄ carry10,
  s10 ≔ s10 -₆₄ (carry10 ≪₆₄ 21),
  carry11 ≔ s11 ≫ 21,
  s12 ≔ s12 +₆₄ carry11,
  s11 ≔ s11 -₆₄ (carry11 ≪₆₄ 21)]

/-- `sc_reduce`, src/ed25519.rs:915-1170, after the loads and before the stores. Part 3. -/
def part3 : List Stmt := [
  s0 ≔ s0 +₆₄ s12 *₆₄ 666643,
  s1 ≔ s1 +₆₄ s12 *₆₄ 470296,
  s2 ≔ s2 +₆₄ s12 *₆₄ 654183,
  s3 ≔ s3 -₆₄ s12 *₆₄ 997805,
  s4 ≔ s4 +₆₄ s12 *₆₄ 136657,
  s5 ≔ s5 -₆₄ s12 *₆₄ 683901]

/-- `sc_reduce`, src/ed25519.rs:915-1170, after the loads and before the stores. Part 4. -/
def part4 : List Stmt := [
  carry0 ≔ s0 ≫ 21,
  s1 ≔ s1 +₆₄ carry0,
  s0 ≔ s0 -₆₄ (carry0 ≪₆₄ 21),
  carry1 ≔ s1 ≫ 21,
  s2 ≔ s2 +₆₄ carry1,
  s1 ≔ s1 -₆₄ (carry1 ≪₆₄ 21),
  carry2 ≔ s2 ≫ 21,
  s3 ≔ s3 +₆₄ carry2,
  s2 ≔ s2 -₆₄ (carry2 ≪₆₄ 21),
  carry3 ≔ s3 ≫ 21,
  s4 ≔ s4 +₆₄ carry3,
  s3 ≔ s3 -₆₄ (carry3 ≪₆₄ 21),
  carry4 ≔ s4 ≫ 21,
  s5 ≔ s5 +₆₄ carry4,
  s4 ≔ s4 -₆₄ (carry4 ≪₆₄ 21),
  carry5 ≔ s5 ≫ 21,
  s6 ≔ s6 +₆₄ carry5,
  s5 ≔ s5 -₆₄ (carry5 ≪₆₄ 21),
  carry6 ≔ s6 ≫ 21,
  s7 ≔ s7 +₆₄ carry6,
  s6 ≔ s6 -₆₄ (carry6 ≪₆₄ 21),
  carry7 ≔ s7 ≫ 21,
  s8 ≔ s8 +₆₄ carry7,
  s7 ≔ s7 -₆₄ (carry7 ≪₆₄ 21),
  carry8 ≔ s8 ≫ 21,
  s9 ≔ s9 +₆₄ carry8,
  s8 ≔ s8 -₆₄ (carry8 ≪₆₄ 21),
  carry9 ≔ s9 ≫ 21,
  s10 ≔ s10 +₆₄ carry9,
  s9 ≔ s9 -₆₄ (carry9 ≪₆₄ 21),
  carry10 ≔ s10 ≫ 21,
  s11 ≔ s11 +₆₄ carry10,
  s10 ≔ s10 -₆₄ (carry10 ≪₆₄ 21)]

/-- `sc_reduce`, src/ed25519.rs:915-1170, after the loads and before the stores. -/
def prog : List Stmt := part1 ++ part2 ++ part3 ++ part4

end ScReduce

end CryptoPure.Model
