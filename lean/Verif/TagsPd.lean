import Verif.Basic
/-!
# `jsonpickle/tags_pd.py`: short tags for dtype names

Only string inputs are modelled: `np_dtypes` and `pd_dtypes` (tags_pd.py:235-245) keep only strings.
-/
namespace JP.TagsPd
open JP

/-- `str.isdigit` of a character and `str.lower`, both from Python's Unicode tables. -/
structure Chars where
  isDigit : Nat → Bool
  lower : Str → Str

/-- The text up to and including the first `]`, if there is one before any newline
(`.` does not match `\n`): the rest of the regular expression after `\[`. -/
def toClose : Str → Option Str
  | [] => none
  | c :: r => if c = 93 then some [c] else if c = 10 then none else (toClose r).map (c :: ·)

/-- `re.search(r"\[.*?\]", s).group()`: leftmost match, shortest body. -/
def brackets : Str → Option Str
  | [] => none
  | c :: r =>
    if c = 91 then match toClose r with
      | some b => some (c :: b)
      | none => brackets r
    else brackets r

/-- `s.replace(pat, "")` for a non-empty pattern: drop non-overlapping occurrences from the left.
The first argument is the number of characters still to be skipped. -/
def removeAll (pat : Str) : Nat → Str → Str
  | _, [] => []
  | k + 1, _ :: r => removeAll pat k r
  | 0, c :: r => if startsWith (c :: r) pat then removeAll pat (pat.length - 1) r else c :: removeAll pat 0 r

/-- tags_pd.py:31-36: split off the trailing digits. -/
def splitTrailing (isDigit : Nat → Bool) (s : Str) : Str × Str :=
  let digits := (s.reverse.takeWhile isDigit).reverse
  (s.take (s.length - digits.length), digits)

/-- tags_pd.py:17-37, `split_letters_numbers_brackets`. -/
def split (ch : Chars) (s : Str) : Str × Str × Str :=
  match brackets s with
  | some b => let p := splitTrailing ch.isDigit (removeAll b 0 s); (p.1, p.2, b)
  | none => let p := splitTrailing ch.isDigit s; (p.1, p.2, [])

structure St where
  used : List Str := []
  usedLetters : List Str := []
  result : List (Str × Str) := []
  deriving Repr, DecidableEq

/-- `for length in range(1, len(letters_part) + 1)`: the shortest unused prefix. -/
def shortest (used : List Str) (letters : Str) : Option Str :=
  ((List.range letters.length).map (fun k => letters.take (k + 1))).find? (fun p => decide (p ∉ used))

/-- The tag chosen by the branches of the loop body (tags_pd.py:56-112), `none` if no unique one was
found.  `letters_part[0]` raises `IndexError` on an empty string. -/
def choose (used usedLetters : List Str) (letters numbers brack : Str) : Except Exc (Option Str) :=
  let fresh (t : Str) : Option Str := if t ∈ used then none else some t
  if letters = p!"datetime" ∧ numbers = p!"64" ∧ brack ≠ [] then .ok (fresh (p!"d64" ++ brack))
  else if letters = p!"timedelta" ∧ numbers = p!"64" ∧ brack ≠ [] then .ok (fresh (p!"t64" ++ brack))
  else if letters ∈ usedLetters then
    if numbers ≠ [] ∨ brack ≠ [] then
      match letters with
      | [] => .error .indexError
      | c :: _ => match fresh ([c] ++ numbers ++ brack) with
        | some t => .ok (some t)
        | none => .ok (fresh (letters ++ numbers ++ brack))
    else .ok (shortest used letters)
  else .ok (shortest used letters)

/-- Whether the branch that records the letters part (tags_pd.py:112) is taken. -/
def recordsLetters (usedLetters : List Str) (letters numbers brack : Str) : Bool :=
  !(decide (letters = p!"datetime" ∧ numbers = p!"64" ∧ brack ≠ []) ||
    decide (letters = p!"timedelta" ∧ numbers = p!"64" ∧ brack ≠ []) ||
    decide (letters ∈ usedLetters))

/-- One turn of the loop, tags_pd.py:47-117; the last resort (115-117) takes the whole string without
checking that it is unused. -/
def step (ch : Chars) (st : St) (s : Str) : Except Exc St :=
  let (l0, numbers, brack) := split ch s
  let letters := ch.lower l0
  match choose st.used st.usedLetters letters numbers brack with
  | .error e => .error e
  | .ok t =>
    let tag := t.getD s
    .ok { used := tag :: st.used,
          usedLetters := if recordsLetters st.usedLetters letters numbers brack then letters :: st.usedLetters
                         else st.usedLetters,
          result := dset s tag st.result }

def loop (ch : Chars) (st : St) : List Str → Except Exc St
  | [] => .ok st
  | s :: r => match step ch st s with
    | .error e => .error e
    | .ok st' => loop ch st' r

/-- tags_pd.py:40-122, `get_smallest_unique_substrings`. -/
def tags (ch : Chars) (strings : List Str) (pre : Str) : Except Exc (List (Str × Str)) :=
  match loop ch {} strings with
  | .error e => .error e
  | .ok st => .ok (st.result.map (fun kv => (kv.1, pre ++ p!"/" ++ kv.2)))

/-- ASCII characters are enough for the dtype names that exist. -/
def ascii : Chars where
  isDigit c := 48 ≤ c && c ≤ 57
  lower s := s.map (fun c => if 65 ≤ c ∧ c ≤ 90 then c + 32 else c)

/-- `TYPE_MAP` (tags_pd.py:248-249) and `REVERSE_TYPE_MAP` (251), from the two dtype lists. -/
def typeMap (np pd : List (Str × Str)) : List (Str × Str) := pd.foldl (fun a kv => dset kv.1 kv.2 a) np
def reverseMap (m : List (Str × Str)) : List (Str × Str) := m.foldl (fun a kv => dset kv.2 kv.1 a) []

end JP.TagsPd
