import Verif.Model.Basic
import Mathlib.Data.Nat.Digits.Defs

/-!
# Model of `update_file_name` (ml/tools.py:391-455)

Names are lists of characters.  The existing files are a predicate.  The generators are state machines, `next`
gives the label or raises.
-/

namespace Discrete1.Ml

/-- A file name (ml/tools.py:416-455). -/
abbrev Name := List Char

/-- `string.ascii_lowercase` (ml/tools.py:392). -/
def alphabet : List Char := "abcdefghijklmnopqrstuvwxyz".toList

/-- Local variables of `_alphabet_generator` (ml/tools.py:391-405). -/
structure AlphaState where
  idx1 : ℕ
  idx2 : ℕ
  tmp : List Char
  letter : ℕ

/-- Start of `_alphabet_generator` (tools.py:392-396). -/
def alphaInit : AlphaState := ⟨0, 1, [], 0⟩

/-- One pass of the `while` loop of `_alphabet_generator` (tools.py:397-405): `alphabet[letter]` may raise
IndexError, the slice `alphabet[idx1:idx2]` may not. -/
def alphaNext (a : AlphaState) : Except PyErr (List Char × AlphaState) :=
  let wrapped : Except PyErr AlphaState :=
    if a.idx2 = alphabet.length + 1 then
      match alphabet[a.letter]? with
      | none => .error .indexError
      | some c => .ok ⟨0, 1, [c], a.letter + 1⟩
    else .ok a
  match wrapped with
  | .error e => .error e
  | .ok a =>
    .ok (a.tmp ++ (alphabet.drop a.idx1).take (a.idx2 - a.idx1), { a with idx1 := a.idx1 + 1, idx2 := a.idx2 + 1 })

/-- A decimal digit (ml/tools.py:411). -/
def digitChar (d : ℕ) : Char := Char.ofNat (48 + d)

/-- `str(n)` for a natural number (ml/tools.py:411). -/
def natStr (n : ℕ) : List Char := if n = 0 then ['0'] else ((Nat.digits 10 n).map digitChar).reverse

/-- `s.zfill(width)` for a string without sign (ml/tools.py:411). -/
def zfill (width : ℕ) (s : List Char) : List Char := List.replicate (width - s.length) '0' ++ s

/-- One pass of `_number_generator` (tools.py:408-413); the state is `idx`. -/
def numberNext (fill idx : ℕ) : Except PyErr (List Char × ℕ) := .ok (zfill fill (natStr idx), idx + 1)

/-- What a call does: return a name, return `None`, raise, or still run after the given number of passes
(ml/tools.py:416-455). -/
inductive NameResult
  | name (n : Name)
  | none
  | raised (e : PyErr)
  | running

/-- The `while version_not_found` loop (tools.py:449-452). -/
def searchLoop {G : Type} (taken : Name → Bool) (next : G → Except PyErr (List Char × G))
    (mk : List Char → Name) : ℕ → G → NameResult
  | 0, _ => .running
  | fuel + 1, g =>
    match next g with
    | .error e => .raised e
    | .ok (l, g') => if taken (mk l) then searchLoop taken next mk fuel g' else .name (mk l)

/-- The `label` argument (ml/tools.py:416-455). -/
inductive LabelKind
  | alphabet
  | number
  | unknown

/-- `f"{tmp_name}.{fmt}"` for `tmp_name = f"{file_name}{label}"` (ml/tools.py:449-455). -/
def fullName (file fmt label : List Char) : Name := file ++ label ++ '.' :: fmt

/-- `update_file_name` (tools.py:416-455) with at most `fuel` passes of the loop. -/
def updateFileName (taken : Name → Bool) (file fmt : List Char) (label : LabelKind) (fill fuel : ℕ) :
    NameResult :=
  match label with
  | .unknown => .none
  | .alphabet =>
    if taken (fullName file fmt []) then searchLoop taken alphaNext (fullName file fmt) fuel alphaInit
    else .name (fullName file fmt [])
  | .number =>
    if taken (fullName file fmt []) then searchLoop taken (numberNext fill) (fullName file fmt) fuel 1
    else .name (fullName file fmt [])

end Discrete1.Ml
