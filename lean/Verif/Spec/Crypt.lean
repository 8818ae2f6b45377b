import Verif.Model.Py
/-!
# The traditional `crypt(3)` of Unix

Independent of the modelled code: the Data Encryption Standard as published (FIPS 46, the tables in its order), and how passwords are hashed
with it. A block gives each of its bits, numbered from 1 as in the standard.
-/
namespace PG.Spec.Crypt
open PG

abbrev Block := Nat → Bool

/-- Bit `i` of the result is the bit of `b` that entry `i` of the table names. -/
def select (table : List Nat) (b : Block) : Block := fun i => b (table.getD (i - 1) 0)

def xor (a b : Block) : Block := fun i => a i ^^ b i

/-- The halves of a block of `2 * n` bits, and the block of two halves. -/
def left (b : Block) : Block := b
def right (n : Nat) (b : Block) : Block := fun i => b (n + i)
def join (n : Nat) (a b : Block) : Block := fun i => if i ≤ n then a i else b (i - n)

/-- The initial permutation and its inverse. -/
def ip : List Nat :=
  [58, 50, 42, 34, 26, 18, 10, 2, 60, 52, 44, 36, 28, 20, 12, 4, 62, 54, 46, 38, 30, 22, 14, 6, 64, 56, 48, 40, 32, 24, 16, 8,
   57, 49, 41, 33, 25, 17, 9, 1, 59, 51, 43, 35, 27, 19, 11, 3, 61, 53, 45, 37, 29, 21, 13, 5, 63, 55, 47, 39, 31, 23, 15, 7]
def fp : List Nat :=
  [40, 8, 48, 16, 56, 24, 64, 32, 39, 7, 47, 15, 55, 23, 63, 31, 38, 6, 46, 14, 54, 22, 62, 30, 37, 5, 45, 13, 53, 21, 61, 29,
   36, 4, 44, 12, 52, 20, 60, 28, 35, 3, 43, 11, 51, 19, 59, 27, 34, 2, 42, 10, 50, 18, 58, 26, 33, 1, 41, 9, 49, 17, 57, 25]

/-- The bit selection E and the permutation P. -/
def e : List Nat :=
  [32, 1, 2, 3, 4, 5, 4, 5, 6, 7, 8, 9, 8, 9, 10, 11, 12, 13, 12, 13, 14, 15, 16, 17,
   16, 17, 18, 19, 20, 21, 20, 21, 22, 23, 24, 25, 24, 25, 26, 27, 28, 29, 28, 29, 30, 31, 32, 1]
def p : List Nat :=
  [16, 7, 20, 21, 29, 12, 28, 17, 1, 15, 23, 26, 5, 18, 31, 10, 2, 8, 24, 14, 32, 27, 3, 9, 19, 13, 30, 6, 22, 11, 4, 25]

/-- The permuted choices of the key schedule, and the numbers of left shifts. -/
def pc1 : List Nat :=
  [57, 49, 41, 33, 25, 17, 9, 1, 58, 50, 42, 34, 26, 18, 10, 2, 59, 51, 43, 35, 27, 19, 11, 3, 60, 52, 44, 36,
   63, 55, 47, 39, 31, 23, 15, 7, 62, 54, 46, 38, 30, 22, 14, 6, 61, 53, 45, 37, 29, 21, 13, 5, 28, 20, 12, 4]
def pc2 : List Nat :=
  [14, 17, 11, 24, 1, 5, 3, 28, 15, 6, 21, 10, 23, 19, 12, 4, 26, 8, 16, 7, 27, 20, 13, 2,
   41, 52, 31, 37, 47, 55, 30, 40, 51, 45, 33, 48, 44, 49, 39, 56, 34, 53, 46, 42, 50, 36, 29, 32]
def shifts : List Nat := [1, 1, 2, 2, 2, 2, 2, 2, 1, 2, 2, 2, 2, 2, 2, 1]

/-- The selection functions S1 to S8, by rows. -/
def s : List (List Nat) :=
  [[14, 4, 13, 1, 2, 15, 11, 8, 3, 10, 6, 12, 5, 9, 0, 7,  0, 15, 7, 4, 14, 2, 13, 1, 10, 6, 12, 11, 9, 5, 3, 8,
    4, 1, 14, 8, 13, 6, 2, 11, 15, 12, 9, 7, 3, 10, 5, 0,  15, 12, 8, 2, 4, 9, 1, 7, 5, 11, 3, 14, 10, 0, 6, 13],
   [15, 1, 8, 14, 6, 11, 3, 4, 9, 7, 2, 13, 12, 0, 5, 10,  3, 13, 4, 7, 15, 2, 8, 14, 12, 0, 1, 10, 6, 9, 11, 5,
    0, 14, 7, 11, 10, 4, 13, 1, 5, 8, 12, 6, 9, 3, 2, 15,  13, 8, 10, 1, 3, 15, 4, 2, 11, 6, 7, 12, 0, 5, 14, 9],
   [10, 0, 9, 14, 6, 3, 15, 5, 1, 13, 12, 7, 11, 4, 2, 8,  13, 7, 0, 9, 3, 4, 6, 10, 2, 8, 5, 14, 12, 11, 15, 1,
    13, 6, 4, 9, 8, 15, 3, 0, 11, 1, 2, 12, 5, 10, 14, 7,  1, 10, 13, 0, 6, 9, 8, 7, 4, 15, 14, 3, 11, 5, 2, 12],
   [7, 13, 14, 3, 0, 6, 9, 10, 1, 2, 8, 5, 11, 12, 4, 15,  13, 8, 11, 5, 6, 15, 0, 3, 4, 7, 2, 12, 1, 10, 14, 9,
    10, 6, 9, 0, 12, 11, 7, 13, 15, 1, 3, 14, 5, 2, 8, 4,  3, 15, 0, 6, 10, 1, 13, 8, 9, 4, 5, 11, 12, 7, 2, 14],
   [2, 12, 4, 1, 7, 10, 11, 6, 8, 5, 3, 15, 13, 0, 14, 9,  14, 11, 2, 12, 4, 7, 13, 1, 5, 0, 15, 10, 3, 9, 8, 6,
    4, 2, 1, 11, 10, 13, 7, 8, 15, 9, 12, 5, 6, 3, 0, 14,  11, 8, 12, 7, 1, 14, 2, 13, 6, 15, 0, 9, 10, 4, 5, 3],
   [12, 1, 10, 15, 9, 2, 6, 8, 0, 13, 3, 4, 14, 7, 5, 11,  10, 15, 4, 2, 7, 12, 9, 5, 6, 1, 13, 14, 0, 11, 3, 8,
    9, 14, 15, 5, 2, 8, 12, 3, 7, 0, 4, 10, 1, 13, 11, 6,  4, 3, 2, 12, 9, 5, 15, 10, 11, 14, 1, 7, 6, 0, 8, 13],
   [4, 11, 2, 14, 15, 0, 8, 13, 3, 12, 9, 7, 5, 10, 6, 1,  13, 0, 11, 7, 4, 9, 1, 10, 14, 3, 5, 12, 2, 15, 8, 6,
    1, 4, 11, 13, 12, 3, 7, 14, 10, 15, 6, 8, 0, 5, 9, 2,  6, 11, 13, 8, 1, 4, 10, 7, 9, 5, 0, 15, 14, 2, 3, 12],
   [13, 2, 8, 4, 6, 15, 11, 1, 10, 9, 3, 14, 5, 0, 12, 7,  1, 15, 13, 8, 10, 3, 7, 4, 12, 5, 6, 11, 0, 14, 9, 2,
    7, 11, 4, 1, 9, 12, 14, 2, 0, 6, 10, 13, 15, 3, 5, 8,  2, 1, 14, 7, 4, 10, 8, 13, 15, 12, 9, 0, 3, 5, 6, 11]]

/-- The number whose binary digits are the given ones, the first the highest. -/
def number (bits : List Bool) : Nat := bits.foldl (fun a b => 2 * a + b.toNat) 0

/-- The value of selection function `k` (from 0) for six bits: the first and the last are the row, the others the column. -/
def value (k : Nat) (b1 b2 b3 b4 b5 b6 : Bool) : Nat := (s.getD k []).getD (16 * number [b1, b6] + number [b2, b3, b4, b5]) 0

/-- The selection functions of the 48 bits of `b`; four bits each. -/
def substitute (b : Block) : Block := fun i =>
  let k := (i - 1) / 4
  (value k (b (6 * k + 1)) (b (6 * k + 2)) (b (6 * k + 3)) (b (6 * k + 4)) (b (6 * k + 5)) (b (6 * k + 6))).testBit (3 - (i - 1) % 4)

/-- The salt: where it has bit `i`, bits `i` and `i + 24` of the selection E are exchanged. -/
def salted (salt : Block) (b : Block) : Block := fun i =>
  if i ≤ 24 then if salt i then b (i + 24) else b i
  else if salt (i - 24) then b (i - 24) else b i

/-- The cipher function f, with the salt. -/
def f (salt r k : Block) : Block := select p (substitute (xor (salted salt (select e r)) k))

/-- `n` left shifts of 28 bits. -/
def shifted (n : Nat) (b : Block) : Block := fun i => b ((i - 1 + n) % 28 + 1)

/-- The keys of the rounds: `c` and `d` are the halves. -/
def keysFrom (c d : Block) : List Nat → List Block
  | [] => []
  | n :: ns => select pc2 (join 28 (shifted n c) (shifted n d)) :: keysFrom (shifted n c) (shifted n d) ns
def keys (key : Block) : List Block := keysFrom (left (select pc1 key)) (right 28 (select pc1 key)) shifts

/-- A round. -/
def round (salt : Block) (lr : Block × Block) (k : Block) : Block × Block := (lr.2, xor lr.1 (f salt lr.2 k))

/-- The Data Encryption Standard, with the salt. -/
def des (salt : Block) (key : Block) (input : Block) : Block :=
  let b := select ip input
  let lr := (keys key).foldl (round salt) (left b, right 32 b)
  select fp (join 32 lr.2 lr.1)

/-- The key of a password: its first eight bytes, each of them its seven low bits and a zero. -/
def keyOf (password : Bytes) : Block := fun i => (i - 1) % 8 < 7 && ((password ++ List.replicate 8 0).getD ((i - 1) / 8) 0).toNat.testBit (6 - (i - 1) % 8)

/-- The 64 digits of `crypt`. -/
def digits : List Char := "./0123456789ABCDEFGHIJKLMNOPQRSTUVWXYZabcdefghijklmnopqrstuvwxyz".toList

/-- The number of a digit. -/
def digit (c : Char) : Nat := digits.findIdx (· = c)

/-- The salt of two digits: bits 1 to 6 are the binary digits of the first, from the lowest on, bits 7 to 12 those of the second. -/
def saltOf (a b : Char) : Block := fun i => if i ≤ 6 then (digit a).testBit (i - 1) else i ≤ 12 && (digit b).testBit (i - 7)

/-- Zero, encrypted `n` times. -/
def times (salt key : Block) : Nat → Block
  | 0 => fun _ => false
  | n + 1 => des salt key (times salt key n)

/-- Digit `j` of a block: six bits from `6 * j + 1` on; there is nothing after bit 64. -/
def digitOf (b : Block) (j : Nat) : Char :=
  digits.getD (number ((List.range 6).map fun m => 6 * j + m < 64 && b (6 * j + m + 1))) '?'

/-- `crypt`: the salt and the eleven digits of zero encrypted 25 times. -/
def crypt (password : Bytes) (a b : Char) : List Char :=
  a :: b :: (List.range 11).map (digitOf (times (saltOf a b) (keyOf password) 25))

end PG.Spec.Crypt
