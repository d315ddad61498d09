import Verif.Spec.Game
import Verif.Spec.RecordGame

/-! # Encrypting a file in pieces

How an application encrypts a file that does not fit one call of an authenticated cipher: in pieces, under one key used for this file only. The number of the piece
is the nonce, and the associated data is one byte that says whether the piece is the last. -/

namespace CryptoPure.FileGame
open Game (Scheme)
open RecordGame (nonce)

variable {K : Type}

/-- The associated data of a piece, when `rest` are the pieces after it. -/
def flag {α : Type} (rest : List α) : Bytes := [if rest.isEmpty then 1 else 0]

/-- Encrypt the pieces from number `i` on. `none` is a panic. -/
def sealFrom (S : Scheme K) (k : K) : Nat → List Bytes → Option (List (Bytes × Bytes))
  | _, [] => some []
  | i, piece :: rest =>
    match S.enc k piece (nonce i) (flag rest) (zeros piece.length) with
    | none => none
    | some r => (sealFrom S k (i + 1) rest).map (r :: ·)

/-- Decrypt the records from number `i` on. `none` is a panic or a rejection. -/
def openFrom (S : Scheme K) (k : K) : Nat → List (Bytes × Bytes) → Option (List Bytes)
  | _, [] => some []
  | i, r :: rest =>
    match S.dec k r.1 (nonce i) (flag rest) r.2 (zeros r.1.length) with
    | some (out, true) => (openFrom S k (i + 1) rest).map (out :: ·)
    | _ => none

/-- Encrypt a file. -/
def sealFile (S : Scheme K) (k : K) (file : List Bytes) : Option (List (Bytes × Bytes)) := sealFrom S k 0 file

/-- Decrypt a file: it has at least one piece. -/
def openFile (S : Scheme K) (k : K) (records : List (Bytes × Bytes)) : Option (List Bytes) :=
  if records = [] then none else openFrom S k 0 records

end CryptoPure.FileGame
