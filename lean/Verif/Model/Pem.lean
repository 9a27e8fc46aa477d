import Verif.Model.Identity
/-!
# PEM files

The text that `pem.Encode` (encoding/pem of the Go library) writes for a block without headers: the begin line, base64 in
lines of 64 characters, the end line. The reader here accepts a text that begins with such a block; what `pem.Decode`
accepts beyond that (text before the block, headers, blanks) does not matter for the files that `NewIdentity` writes.
It shows that the laws of `Pem` hold for the real file format.
-/
namespace Verif.Identity

/-! ### Base64 -/

/-- The character for a digit below 64. -/
def digit (d : Nat) : Byte :=
  if d < 26 then BitVec.ofNat 8 (65 + d)
  else if d < 52 then BitVec.ofNat 8 (71 + d)
  else if d < 62 then BitVec.ofNat 8 (d - 4)
  else if d = 62 then 43
  else 47

/-- The digit for a character. -/
def undigit (c : Byte) : Option Nat :=
  let n := c.toNat
  if 65 ≤ n ∧ n ≤ 90 then some (n - 65)
  else if 97 ≤ n ∧ n ≤ 122 then some (n - 71)
  else if 48 ≤ n ∧ n ≤ 57 then some (n + 4)
  else if n = 43 then some 62
  else if n = 47 then some 63
  else none

def base64 : Bytes → Bytes
  | x :: y :: z :: r =>
    let n := x.toNat * 65536 + y.toNat * 256 + z.toNat
    digit (n / 262144) :: digit (n / 4096 % 64) :: digit (n / 64 % 64) :: digit (n % 64) :: base64 r
  | [x, y] =>
    let n := x.toNat * 65536 + y.toNat * 256
    [digit (n / 262144), digit (n / 4096 % 64), digit (n / 64 % 64), 61]
  | [x] =>
    let n := x.toNat * 65536
    [digit (n / 262144), digit (n / 4096 % 64), 61, 61]
  | [] => []

def unbase64 : Bytes → Option Bytes
  | [] => some []
  | [a, b, 61, 61] =>
    match undigit a, undigit b with
    | some a, some b => some [BitVec.ofNat 8 ((a * 64 + b) / 16)]
    | _, _ => none
  | a :: b :: c :: d :: r =>
    if d = 61 then
      match undigit a, undigit b, undigit c with
      | some a, some b, some c =>
        if r = [] then
          let n := a * 4096 + b * 64 + c
          some [BitVec.ofNat 8 (n / 1024), BitVec.ofNat 8 (n / 4)]
        else none
      | _, _, _ => none
    else
      match undigit a, undigit b, undigit c, undigit d, unbase64 r with
      | some a, some b, some c, some d, some r =>
        let n := a * 262144 + b * 4096 + c * 64 + d
        some (BitVec.ofNat 8 (n / 65536) :: BitVec.ofNat 8 (n / 256) :: BitVec.ofNat 8 n :: r)
      | _, _, _, _, _ => none
  | _ => none

/-! ### Lines -/

/-- Every 64 characters, and the rest if there is one, are followed by a line feed. -/
def linesFrom : Nat → Bytes → Bytes
  | used, [] => if used = 0 then [] else [10]
  | used, c :: r => if used + 1 = 64 then c :: 10 :: linesFrom 0 r else c :: linesFrom (used + 1) r

def ascii (s : List Char) : Bytes := s.map fun c => BitVec.ofNat 8 c.toNat

/-- `keyType` (identity.go:129, 138). -/
def keyType (priv : Bool) : Bytes :=
  if priv then ascii ['E','D','2','5','5','1','9',' ','P','R','I','V','A','T','E',' ','K','E','Y']
  else ascii ['E','D','2','5','5','1','9',' ','P','U','B','L','I','C',' ','K','E','Y']

def dashes : Bytes := [45, 45, 45, 45, 45]
def beginLine (t : Bool) : Bytes := dashes ++ ascii ['B','E','G','I','N',' '] ++ keyType t ++ dashes ++ [10]
/-- The end line without its line feed. -/
def endLine (t : Bool) : Bytes := dashes ++ ascii ['E','N','D',' '] ++ keyType t ++ dashes

def pemText (t : Bool) (b : Bytes) : Bytes := beginLine t ++ linesFrom 0 (base64 b) ++ endLine t ++ [10]

/-- A block of the given type. -/
def readBlock (t : Bool) (text : Bytes) : Option Bytes :=
  if (beginLine t).isPrefixOf text then
    let rest := text.drop (beginLine t).length
    let data := rest.takeWhile (· ≠ 45)
    let trailer := rest.dropWhile (· ≠ 45)
    if (endLine t).isPrefixOf trailer ∧ (trailer.drop (endLine t).length).headD 10 = 10 then
      unbase64 (data.filter (· ≠ 10))
    else none
  else none

def pemRead (text : Bytes) : Option Bytes :=
  match readBlock true text with
  | some b => some b
  | none => readBlock false text

end Verif.Identity
