import Verif.Spec.Clock

/-!
# Specification of the texts that are recognized as a type

`dig` is the table of decimal digits: it contains the ASCII digits and may contain others.
-/

namespace Clever.Spec

/-- All characters are in the table. -/
def AllIn (p : Char → Bool) (s : Str) : Prop := ∀ c ∈ s, p c = true

/-- An optional sign. -/
def IsSign (s : Str) : Prop := s = [] ∨ s = ['+'] ∨ s = ['-']

/-- `e`, an optional sign, and digits. -/
def IsExponent (dig : Char → Bool) (s : Str) : Prop :=
  ∃ e g ds, (e = 'e' ∨ e = 'E') ∧ IsSign g ∧ ds ≠ [] ∧ AllIn dig ds ∧ s = e :: (g ++ ds)

/-- A whole number without a leading zero. -/
def IsWhole (dig : Char → Bool) (s : Str) : Prop :=
  s = ['0'] ∨ ∃ n ds, 1 ≤ n ∧ n ≤ 9 ∧ AllIn dig ds ∧ s = dg n :: ds

/-- What may follow the sign and the whole part; `whole` tells whether there is a whole part:
nothing; an exponent; a point with digits and an optional exponent; or a comma with digits and, if there
are two digits or more, an optional exponent. -/
def IsNumTail (dig : Char → Bool) (whole : Prop) (t : Str) : Prop :=
  t = [] ∨ (whole ∧ IsExponent dig t) ∨
  (∃ ds e, AllIn dig ds ∧ (whole ∨ ds ≠ []) ∧ (e = [] ∨ IsExponent dig e) ∧ t = '.' :: (ds ++ e)) ∨
  (∃ ds e, AllIn dig ds ∧ ds ≠ [] ∧ (e = [] ∨ 2 ≤ ds.length ∧ IsExponent dig e) ∧ t = ',' :: (ds ++ e))

/-- A sign, a whole part and a fraction; not all three are missing. -/
def IsDecimalNumber (dig : Char → Bool) (s : Str) : Prop :=
  s ≠ [] ∧ ∃ g n t, IsSign g ∧ (n = [] ∨ IsWhole dig n) ∧ IsNumTail dig (n ≠ []) t ∧ s = g ++ (n ++ t)

/-- A separator and three digits. -/
def IsGroup (dig : Char → Bool) (sep : Char) (s : Str) : Prop :=
  ∃ ds, ds.length = 3 ∧ AllIn dig ds ∧ s = sep :: ds

/-- One to three digits, not beginning with zero, and groups of three digits. -/
def IsGroups (dig : Char → Bool) (sep : Char) (s : Str) : Prop :=
  ∃ n ds gs, 1 ≤ n ∧ n ≤ 9 ∧ ds.length ≤ 2 ∧ AllIn dig ds ∧ gs ≠ [] ∧ (∀ x ∈ gs, IsGroup dig sep x) ∧
    s = dg n :: (ds ++ gs.flatten)

/-- A number with separated thousands and a fraction. -/
def IsGrouped (dig : Char → Bool) (sep radix : Char) (s : Str) : Prop :=
  ∃ g n ds, IsSign g ∧ IsGroups dig sep n ∧ AllIn dig ds ∧ s = g ++ (n ++ radix :: ds)

/-- The texts that are recognized as numbers. -/
def IsNumberText (dig : Char → Bool) (s : Str) : Prop :=
  IsDecimalNumber dig s ∨ IsGrouped dig ',' '.' s ∨ IsGrouped dig '.' ',' s

/-- Four groups of one to three digits with points between them. -/
def IsDottedQuad (dig : Char → Bool) (s : Str) : Prop :=
  ∃ a b c d, (∀ x ∈ [a, b, c, d], 1 ≤ x.length ∧ x.length ≤ 3 ∧ AllIn dig x) ∧
    s = a ++ '.' :: (b ++ '.' :: (c ++ '.' :: d))

/-- A lower-case ASCII letter. -/
def low (c : Char) : Bool := 97 ≤ c.toNat && c.toNat ≤ 122

/-- An optional port of one to five digits. -/
def IsPort (dig : Char → Bool) (s : Str) : Prop :=
  s = [] ∨ ∃ ds, 1 ≤ ds.length ∧ ds.length ≤ 5 ∧ AllIn dig ds ∧ s = ':' :: ds

/-- A domain name: labels that end with a point, a top-level name of two or more lower-case letters, and
optionally one more name of two or three lower-case letters.  `wrd` is the table of the characters of labels
apart from the hyphen. -/
def IsDomain (wrd : Char → Bool) (s : Str) : Prop :=
  ∃ labels tld cc, labels ≠ [] ∧
    (∀ x ∈ labels, ∃ l, l ≠ [] ∧ AllIn (fun c => wrd c || c = '-') l ∧ x = l ++ ['.']) ∧
    (2 ≤ tld.length ∧ AllIn low tld) ∧
    (cc = [] ∨ ∃ l, 2 ≤ l.length ∧ l.length ≤ 3 ∧ AllIn low l ∧ cc = '.' :: l) ∧
    s = labels.flatten ++ (tld ++ cc)

/-- The host of a URL: a domain name, `localhost` or a dotted quad, the last two with an optional port. -/
def IsHost (wrd dig : Char → Bool) (s : Str) : Prop :=
  IsDomain wrd s ∨ (∃ p, IsPort dig p ∧ s = "localhost".toList ++ p) ∨
  (∃ q p, IsDottedQuad dig q ∧ IsPort dig p ∧ s = q ++ p)

/-- The texts that are recognized as URLs: an optional scheme (not followed by a hyphen), a host, an optional
path and an optional extension. -/
def IsUrlText (wrd dig : Char → Bool) (s : Str) : Prop :=
  ∃ a b c d, (a = [] ∨ a ∈ ["http://".toList, "https://".toList, "ftp://".toList] ∧ b.head? ≠ some '-') ∧
    IsHost wrd dig b ∧
    (c = [] ∨ ∃ l, AllIn (fun c => wrd c || "_/()~?=&%-#.:".toList.contains c) l ∧ c = '/' :: l) ∧
    (d = [] ∨ ∃ l, l ≠ [] ∧ AllIn low l ∧ d = '.' :: l) ∧
    s = a ++ (b ++ (c ++ d))

/-- An ASCII letter or digit. -/
def alnum (c : Char) : Bool :=
  low c || (65 ≤ c.toNat && c.toNat ≤ 90) || (48 ≤ c.toNat && c.toNat ≤ 57)

/-- Name, at sign, name, point, name. -/
def IsEmailText (s : Str) : Prop :=
  ∃ a b c, a ≠ [] ∧ AllIn (fun x => alnum x || "_.+-".toList.contains x) a ∧
    b ≠ [] ∧ AllIn (fun x => alnum x || x = '-') b ∧
    c ≠ [] ∧ AllIn (fun x => alnum x || "-.".toList.contains x) c ∧ s = a ++ '@' :: (b ++ '.' :: c)

/-- An optional `~` or `.`, one or more slashes each followed by a name, and an optional slash. -/
def IsPathText (s : Str) : Prop :=
  ∃ a names z, (a = [] ∨ a = ['~'] ∨ a = ['.']) ∧ names ≠ [] ∧
    (∀ x ∈ names, ∃ l, l ≠ [] ∧ AllIn (fun x => alnum x || ".-_".toList.contains x) l ∧ x = '/' :: l) ∧
    (z = [] ∨ z = ['/']) ∧ s = a ++ (names.flatten ++ z)

/-- A month with two digits. -/
def IsMonth2 (s : Str) : Prop := ∃ m, 1 ≤ m ∧ m ≤ 12 ∧ s = pad2 m

/-- A month. -/
def IsMonth (s : Str) : Prop := IsMonth2 s ∨ ∃ m, 1 ≤ m ∧ m ≤ 9 ∧ s = [dg m]

/-- A day of the month with two digits (the second digit of the days from 10 to 29 can be any digit of the
table). -/
def IsDay2 (dig : Char → Bool) (s : Str) : Prop :=
  (∃ d, 1 ≤ d ∧ d ≤ 9 ∧ s = pad2 d) ∨ (∃ x y, (x = '1' ∨ x = '2') ∧ dig y = true ∧ s = [x, y]) ∨
  s = pad2 30 ∨ s = pad2 31

/-- A day of the month. -/
def IsDay (dig : Char → Bool) (s : Str) : Prop := IsDay2 dig s ∨ ∃ d, 1 ≤ d ∧ d ≤ 9 ∧ s = [dg d]

/-- A year: four digits of which the first is 1 or 2, or two digits. -/
def IsYear (dig : Char → Bool) (s : Str) : Prop :=
  (∃ x ds, (x = '1' ∨ x = '2') ∧ ds.length = 3 ∧ AllIn dig ds ∧ s = x :: ds) ∨ (s.length = 2 ∧ AllIn dig s)

/-- The texts that are recognized as dates: month, day, year, or day, month, year, or year, month, day, with a
separator (twice the same one), or without one and with two digits for month and day; or the Chinese, Japanese
and Korean notations. -/
def IsDateText (dig : Char → Bool) (s : Str) : Prop :=
  ∃ d m y, IsDay dig d ∧ IsMonth m ∧ IsYear dig y ∧
    ((∃ x, x ∈ "-/. ".toList ∧ (s = m ++ x :: (d ++ x :: y) ∨ s = d ++ x :: (m ++ x :: y) ∨
      s = y ++ x :: (m ++ x :: d))) ∨
     (IsDay2 dig d ∧ IsMonth2 m ∧ (s = m ++ (d ++ y) ∨ s = d ++ (m ++ y) ∨ s = y ++ (m ++ d))) ∨
     s = y ++ '年' :: (m ++ '月' :: (d ++ ['日'])) ∨ s = y ++ '년' :: (m ++ '월' :: (d ++ ['일'])))

/-- The offset of a time: a clock time, or `hhmm`. -/
def IsOffsetText (s : Str) : Prop := IsClock s ∨ ∃ h m, h < 24 ∧ m < 60 ∧ s = pad2 h ++ pad2 m

/-- `a` is the text before the first `x`, and `b` the text after it up to the next `x` or the end. -/
def IsFirstTwo (x : Char) (s a b : Str) : Prop :=
  x ∉ a ∧ x ∉ b ∧ ∃ r, (r = [] ∨ r.head? = some x) ∧ s = a ++ x :: (b ++ r)

/-- What may follow the `T`: a clock time, possibly followed by `Z`; or a clock time and, after `+` or (when there
is no `+`) after `-`, an offset and any text that begins with that sign. -/
def IsIsoTimeText (strip : Str → Str) (t : Str) : Prop :=
  (∃ u, t = u ++ ['Z'] ∧ IsClock (strip u)) ∨ IsClock (strip t) ∨
  (∃ a b, IsFirstTwo '+' t a b ∧ IsClock (strip a) ∧ IsOffsetText (strip b)) ∨
  ('+' ∉ t ∧ ∃ a b, IsFirstTwo '-' t a b ∧ IsClock (strip a) ∧ IsOffsetText (strip b))

/-- The texts that are recognized as a date with a time: a date, one space and a clock time; or, when there is no
space, a date, `T`, and a time without another `T`.  `date` tells what a date is. -/
def IsDatetimeText (date : Str → Prop) (strip : Str → Str) (s : Str) : Prop :=
  (∃ a b, ' ' ∉ a ∧ ' ' ∉ b ∧ s = a ++ ' ' :: b ∧ date (strip a) ∧ IsClock (strip b)) ∨
  (' ' ∉ s ∧ ∃ a b, 'T' ∉ a ∧ 'T' ∉ b ∧ s = a ++ 'T' :: b ∧ date (strip a) ∧ IsIsoTimeText strip b)

/-- A number followed by one or more percent signs; `strip` removes the white space around the number. -/
def IsPercentText (dig : Char → Bool) (strip : Str → Str) (s : Str) : Prop :=
  ∃ n k, 1 ≤ k ∧ n.getLast? ≠ some '%' ∧ IsNumberText dig (strip n) ∧ s = n ++ List.replicate k '%'

/-- A currency sign, an optional white space character, and text without line feeds that is a number when the
white space around it is removed. -/
def IsCurrencyText (cur sp dig : Char → Bool) (strip : Str → Str) (s : Str) : Prop :=
  ∃ c w n, cur c = true ∧ (w = [] ∨ ∃ x, sp x = true ∧ w = [x]) ∧ '\n' ∉ n ∧ IsNumberText dig (strip n) ∧
    s = c :: (w ++ n)

/-- Words: letters, digits, spaces and some punctuation marks; also commas in a quoted cell. -/
def IsWordText (quoted : Bool) (s : Str) : Prop :=
  s ≠ [] ∧ ∀ c ∈ s, alnum c = true ∨ c ∈ " -_.()?!".toList ∨ (quoted = true ∧ c = ',')

/-- Hyphen, underscore, and full stops, parentheses, question and exclamation marks of all scripts. -/
def wordMarks : Str := "-_.۔。﹒．｡()⟮⟯（）?¿\u037e՞؟፧᥅⁇⁈⁉⳺⳻⸮꘏꛷︖﹖？𑅃𞥟!¡ǃ՜߹႟᥄‼⁈⁉꩷︕﹗！𞥞".toList

/-- Commas of all scripts. -/
def commas : Str := ",،፣᠂᠈，﹐".toList

/-- Words of any script: letters and numbers (what these are is given), spaces and punctuation marks; also commas in a
quoted cell. -/
def IsScriptWord (num letter : Char → Bool) (quoted : Bool) (s : Str) : Prop :=
  s ≠ [] ∧ ∀ c ∈ s, num c = true ∨ letter c = true ∨ c = ' ' ∨ c ∈ wordMarks ∨ (quoted = true ∧ c ∈ commas)

/-- Equal apart from the case of ASCII letters; `d` is in lower case. -/
def SameLetter (c d : Char) : Prop := c = d ∨ (low d = true ∧ c.toNat + 32 = d.toNat)

/-- Texts that are equal apart from the case of ASCII letters. -/
def SameLetters : Str → Str → Prop
  | [], [] => True
  | c :: s, d :: t => SameLetter c d ∧ SameLetters s t
  | _, _ => False

/-- The texts for missing values: `n/a`, `na` and `nan`, in lower or upper case. -/
def IsNanText (s : Str) : Prop :=
  ∃ t ∈ ["n/a".toList, "na".toList, "nan".toList], SameLetters s t

end Clever.Spec
