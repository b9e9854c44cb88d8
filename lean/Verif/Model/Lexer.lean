import Verif.Basic

/-!
# Tokens of a problem file

Models the character classes and the class `stream_buffer` of
`lib/src/parser.cpp:38-448`.  A text is a list of characters; a `char` above 127 is
a character above 127, and belongs to no class of the C locale.
-/

namespace Bx.Parser

/-- The characters of a `std::string_view`. -/
abbrev Token := List Char

/-- `are_equal` (`parser.cpp:38-52`). -/
def areEqual (lhs rhs : Token) : Bool := lhs.map Char.toLower == rhs.map Char.toLower

/-- `is_char_operator` (`parser.cpp:54-58`). -/
def isCharOperator (c : Char) : Bool := c == '<' || c == '>' || c == '='

/-- `starts_with_operator` (`parser.cpp:60-64`). -/
def startsWithOperator (t : Token) : Bool :=
  match t with
  | [] => false
  | c :: _ => isCharOperator c

/-- `c >= '0' && c <= '9'`. -/
def isDigitC (c : Char) : Bool := decide ('0' ≤ c) && decide (c ≤ '9')

/-- The characters of the `switch` of `parser.cpp:74-91`. -/
def nameChars : List Char :=
  ['!', '"', '#', '$', '%', '&', '(', ')', ',', '.', ';', '?', '@', '_', '{', '}', '~']

/-- `is_char_name` (`parser.cpp:66-96`). -/
def isCharName (c : Char) : Bool :=
  (decide ('a' ≤ c) && decide (c ≤ 'z')) || (decide ('A' ≤ c) && decide (c ≤ 'Z')) ||
    isDigitC c || nameChars.contains c

/-- `starts_with_name` (`parser.cpp:98-102`). -/
def startsWithName (t : Token) : Bool :=
  match t with
  | [] => false
  | c :: _ => isCharName c

/-- `is_number` (`parser.cpp:104-109`). -/
def isNumber (c : Char) : Bool :=
  isDigitC c || c == '.' || c == 'e' || c == 'E' || c == '-' || c == '+'

/-- `starts_with_a_number` (`parser.cpp:111-116`). -/
def startsWithANumber (c : Char) : Bool := isDigitC c || c == '.' || c == '-' || c == '+'

/-- `starts_with_number` (`parser.cpp:118-129`). -/
def startsWithNumber (t : Token) : Bool :=
  match t with
  | [] => false
  | c :: _ =>
    ((c == 'i' || c == 'I') && (areEqual t "infinity".toList || areEqual t "inf".toList)) ||
      isNumber c

/-- `is_separator` (`parser.cpp:131-149`). -/
def isSeparator (c : Char) : Bool :=
  ['<', '=', '>', ':', '-', '+', '[', ']', '*', '^'].contains c

/-- `keywords` (`parser.cpp:151-154`). -/
def keywords : List Token :=
  ["binary".toList, "binaries".toList, "bin".toList, "bound".toList, "bounds".toList,
    "general".toList, "generals".toList, "gen".toList, "end".toList, "st".toList,
    "subject".toList, "sush".toList, "s.t.".toList, "st.".toList]

/-- `is_keyword` (`parser.cpp:156-170`). -/
def isKeyword (t : Token) : Bool := keywords.any fun k => areEqual k t

/-! ## Extraction of words -/

/-- `std::isspace` in the C locale. -/
def isSpace (c : Char) : Bool :=
  c == ' ' || c == '\t' || c == '\n' || c == '\x0b' || c == '\x0c' || c == '\r'

/-- The number of characters that `is >> buffer` stores in a `char[512]`. -/
def maxWord : Nat := 511

/-- `is.ignore(max, '\n')`. -/
def dropLine (input : List Char) : List Char := (input.dropWhile (· != '\n')).drop 1

/-- The content of a `char` array after the storage of a C string. -/
def overwrite (old word : List Char) : List Char :=
  word ++ '\x00' :: old.drop (word.length + 1)

/-- The loop of `parser.cpp:394-405`: `buf` is the array, `input` the characters not
yet extracted, `good` the state of the stream.  A failed extraction (no more word)
leaves the array as it is. -/
def readWord : Nat → List Char → List Char → Bool → List Char × List Char × Bool
  | 0, buf, input, good => (buf, input, good)
  | k + 1, buf, input, good =>
    if !good then (buf, input, false)
    else
      let inp := input.dropWhile isSpace
      if inp = [] then (buf, [], false)
      else
        let word := (inp.takeWhile fun c => !isSpace c).take maxWord
        let rest := inp.drop word.length
        let good1 := !(decide (word.length < maxWord) && rest.isEmpty)
        let buf1 := overwrite buf word
        if buf1.head? = some '\\' then
          let rest1 := dropLine rest
          readWord k buf1 rest1 (good1 && rest.contains '\n')
        else if buf1.head? = some '\x00' then readWord k buf1 rest good1
        else (buf1, rest, good1)

/-! ## The buffer of tokens -/

/-- `stream_token` (`parser.cpp:365-369`): the characters after the end of the list
are `'\0'`. -/
structure Slot where
  buffer : List Char := []
  current : Nat := 0
  deriving DecidableEq, Repr

/-- The character `buffer[i]`. -/
def Slot.char (t : Slot) (i : Nat) : Char := t.buffer.getD i '\x00'

/-- A `std::string_view` on the characters of a slot. -/
structure View where
  slot : Nat
  start : Nat
  size : Nat
  deriving DecidableEq, Repr

/-- `stream_buffer` (`parser.cpp:268-448`).  `none` is the view without characters
`std::string_view()`. -/
structure Stream where
  input : List Char
  good : Bool := true
  slots : List Slot := List.replicate 10 {}
  cur : Nat := 0
  ptr : List (Option View) := List.replicate 10 none
  deriving DecidableEq, Repr

/-- `token[current_token_buffer]`. -/
def Stream.slot (s : Stream) : Slot := s.slots.getD s.cur {}

/-- The characters that a view denotes now. -/
def Stream.deref (s : Stream) (v : Option View) : Token :=
  match v with
  | none => []
  | some v => (((s.slots.getD v.slot {}).buffer).drop v.start).take v.size

/-- The loop of `parser.cpp:431-443`: the number of characters accepted from `cs`. -/
def tokenRest (number : Bool) : List Char → Nat
  | [] => 0
  | c :: cs =>
    if c = '\x00' then 0
    else if isSeparator c then 0
    else if number && !isNumber c then 0
    else tokenRest number cs + 1

/-- `parser.cpp:412-446`: a token in the current slot. -/
def Stream.cut (s : Stream) : Stream × Option View :=
  let t := s.slot
  let c := t.char t.current
  if c = '\x00' then (s, none)
  else
    let len :=
      if isSeparator c then 1
      else if t.char (t.current + 1) = '\x00' then 1
      else 1 + tokenRest (startsWithANumber c) (t.buffer.drop (t.current + 1))
    ({ s with slots := s.slots.set s.cur { t with current := t.current + len } },
      some ⟨s.cur, t.current, len⟩)

/-- `parser.cpp:388-409`: a new word in the next slot; `false` when the function
returns there. -/
def Stream.advance (s : Stream) : Stream × Bool :=
  let s1 := { s with cur := (s.cur + 1) % 10 }
  if !s1.good then (s1, false)
  else
    let cleared := s1.slot.buffer.set 0 '\x00'
    let (buf, rest, good) := readWord (s1.input.length + 1) cleared s1.input true
    let s2 := { s1 with
      slots := s1.slots.set s1.cur ⟨buf, 0⟩
      input := rest
      good := good }
    (s2, s2.slot.char 0 != '\x00')

/-- `next_token` (`parser.cpp:384-447`). -/
def Stream.nextToken (s : Stream) : Stream × Option View :=
  if s.slot.char s.slot.current = '\x00' then
    match s.advance with
    | (s1, false) => (s1, none)
    | (s1, true) => s1.cut
  else s.cut

/-- `do_push_back` (`parser.cpp:376-382`): the positions `is` receive the next
tokens. -/
def Stream.pushBack (s : Stream) : List Nat → Stream
  | [] => s
  | i :: is =>
    let (s1, v) := s.nextToken
    Stream.pushBack { s1 with ptr := s1.ptr.set i v } is

/-- The positions `10 - size`, ..., `9`. -/
def lastPositions (size : Nat) : List Nat := (List.range size).map fun i => 10 - size + i

/-- The assignments of `parser.cpp:304-315`. -/
def shift (ptr : List (Option View)) (size : Nat) : List (Option View) :=
  ((List.range 9).foldl (fun a k => a.set k (a.getD ((size + k) % 10) none)) ptr).set 9
    (ptr.getD 0 none)

/-- `pop_front(size)` (`parser.cpp:300-318`) after its test; `pop_front()`
(`parser.cpp:282-298`) is `pop_front(1)`. -/
def Stream.pop (s : Stream) (size : Nat) : Stream :=
  Stream.pushBack { s with ptr := shift s.ptr size } (lastPositions size)

/-- The constructor of `stream_buffer` (`parser.cpp:275-280`). -/
def Stream.open (text : List Char) : Stream := Stream.pushBack { input := text } (lastPositions 10)

/-- `buffer_ptr[i]`. -/
def Stream.tok (s : Stream) (i : Nat) : Token := s.deref (s.ptr.getD i none)

/-- What the view `buffer_ptr[i]` of the state `s` denotes in the later state `s1`. -/
def Stream.stale (s : Stream) (i : Nat) (s1 : Stream) : Token := s1.deref (s.ptr.getD i none)

end Bx.Parser
