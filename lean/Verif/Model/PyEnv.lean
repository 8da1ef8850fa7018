import Verif.Basic

/-!
# Tables of the Python runtime

The Unicode tables of CPython and of the `regex` package are parameters of the models: the theorems
hold for all tables (or for all tables that agree with ASCII, `PyEnv.Ascii`).
-/

namespace Clever

/-- Character tables and limits of the runtime. -/
structure PyEnv where
  /-- `\p{L}` of the `regex` package -/
  letter : Char → Bool
  /-- `\p{N}` of the `regex` package -/
  number : Char → Bool
  /-- `\d` of the `regex` package (for `str` patterns) -/
  decimal : Char → Bool
  /-- `\p{Sc}` of the `regex` package -/
  currency : Char → Bool
  /-- `\s` of the `regex` package (for `str` patterns) -/
  reSpace : Char → Bool
  /-- `str.isspace` on a character: what `str.strip()` removes -/
  space : Char → Bool
  /-- `str.isdigit` on a character -/
  digit : Char → Bool
  /-- `str.lower` -/
  lower : Str → Str
  /-- `unicodedata.category` -/
  category : Char → String
  /-- `sys.get_int_max_str_digits()` (0: unlimited) -/
  maxStrDigits : Nat
  /-- nesting depth of JSON values at which `json.loads` raises `RecursionError` -/
  jsonDepth : Nat

/-- An ASCII digit. -/
def isDig (c : Char) : Bool := '0' ≤ c && c ≤ '9'

/-- An ASCII lower-case letter. -/
def isLow (c : Char) : Bool := 'a' ≤ c && c ≤ 'z'

/-- An ASCII upper-case letter. -/
def isUpp (c : Char) : Bool := 'A' ≤ c && c ≤ 'Z'

/-- `unicodedata.category` of the ASCII characters. -/
def asciiCategory (c : Char) : String :=
  if c.toNat < 32 || c.toNat = 127 then "Cc"
  else if isDig c then "Nd"
  else if isLow c then "Ll"
  else if isUpp c then "Lu"
  else if c = ' ' then "Zs"
  else if c = '$' then "Sc"
  else if c = '(' || c = '[' || c = '{' then "Ps"
  else if c = ')' || c = ']' || c = '}' then "Pe"
  else if c = '-' then "Pd"
  else if c = '_' then "Pc"
  else if c = '+' || c = '<' || c = '=' || c = '>' || c = '|' || c = '~' then "Sm"
  else if c = '^' || c = '`' then "Sk"
  else "Po"

/-- ASCII lower-casing of a character. -/
def asciiLower (c : Char) : Char := if isUpp c then Char.ofNat (c.toNat + 32) else c

/-- The tables agree with the actual ones on ASCII characters. -/
structure PyEnv.Ascii (env : PyEnv) : Prop where
  letter : ∀ c, c.toNat < 128 → env.letter c = (isLow c || isUpp c)
  number : ∀ c, c.toNat < 128 → env.number c = isDig c
  decimal : ∀ c, c.toNat < 128 → env.decimal c = isDig c
  currency : ∀ c, c.toNat < 128 → env.currency c = decide (c = '$')
  reSpace : ∀ c, c.toNat < 128 → env.reSpace c = (c = ' ' || (9 ≤ c.toNat && c.toNat ≤ 13))
  space : ∀ c, c.toNat < 128 →
    env.space c = (c = ' ' || (9 ≤ c.toNat && c.toNat ≤ 13) || (28 ≤ c.toNat && c.toNat ≤ 31))
  digit : ∀ c, c.toNat < 128 → env.digit c = isDig c
  lower : ∀ s : Str, (∀ c ∈ s, c.toNat < 128) → env.lower s = s.map asciiLower
  category : ∀ c, c.toNat < 128 → env.category c = asciiCategory c

/-- Tables for the examples: the actual ones on ASCII; all other characters are letters. -/
def asciiEnv : PyEnv where
  letter c := isLow c || isUpp c || 128 ≤ c.toNat
  number := isDig
  decimal := isDig
  currency c := c = '$'
  reSpace c := c = ' ' || (9 ≤ c.toNat && c.toNat ≤ 13)
  space c := c = ' ' || (9 ≤ c.toNat && c.toNat ≤ 13) || (28 ≤ c.toNat && c.toNat ≤ 31)
  digit := isDig
  lower s := s.map asciiLower
  category c := if c.toNat < 128 then asciiCategory c else "Lo"
  maxStrDigits := 4300
  jsonDepth := 990

theorem asciiEnv_ascii : asciiEnv.Ascii where
  letter c h := by simp [asciiEnv]; omega
  number c h := rfl
  decimal c h := rfl
  currency c h := rfl
  reSpace c h := rfl
  space c h := rfl
  digit c h := rfl
  lower s h := rfl
  category c h := by simp [asciiEnv, h]

/-- `s.strip()`. -/
def PyEnv.strip (env : PyEnv) (s : Str) : Str :=
  ((s.dropWhile env.space).reverse.dropWhile env.space).reverse

end Clever
