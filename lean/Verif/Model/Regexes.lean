import Verif.Model.Regex

/-!
# The patterns of clevercsv/_regexes.py

Capturing groups whose content is never used are left out.
-/

namespace Clever

open Re

/-- `[a-b]`. -/
def rng (a b : Char) : Char → Bool := fun c => a ≤ c && c ≤ b

/-- One of the given characters. -/
def oneOf (s : List Char) : Char → Bool := fun c => s.contains c

/-- `[eE][+-]?\d+`. -/
def reExp (env : PyEnv) : Re :=
  cat [.cls (oneOf ['e', 'E']), opt (.cls (oneOf ['+', '-'])), plus (.cls env.decimal)]

/-- `((?<=\d)[eE][+-]?\d+)?`. -/
def reNoDot (env : PyEnv) : Re := opt (.seq (.behind env.decimal) (reExp env))

/-- `PATTERN_NUMBER_1`, clevercsv/_regexes.py:13-36; group 1 is `dot`, group 2 is `comma`.  Note that
`[+-\.\d]` contains the range from `+` to `.`. -/
def reNumber1 (env : PyEnv) : Re :=
  cat [.bol,
    .ahead (.cls (fun c => rng '+' '.' c || env.decimal c)),
    opt (.cls (oneOf ['+', '-'])),
    opt (.alt (chr '0') (.seq (.cls (rng '1' '9')) (.star (.cls env.decimal)))),
    .alt
      (.seq
        (opt (.grp 1 (.alt (.seq (.behind env.decimal) (chr '.'))
          (.seq (chr '.') (.ahead (.cls env.decimal))))))
        (.cond 1
          (.seq (.star (.cls env.decimal))
            (opt (.seq (.star (.cls env.decimal)) (reExp env))))
          (reNoDot env)))
      (.seq
        (opt (.grp 2 (chr ',')))
        (.cond 2
          (.seq (plus (.cls env.decimal))
            (opt (.seq (plus (.cls env.decimal)) (reExp env))))
          (reNoDot env))),
    .eol]

/-- Common part of `PATTERN_NUMBER_2` and `PATTERN_NUMBER_3`. -/
def reThousands (env : PyEnv) (sep radix : Char) : Re :=
  cat [opt (.cls (oneOf ['+', '-'])),
    .alt (.cls (rng '1' '9')) (.seq (.cls (rng '1' '9')) ((Re.cls env.decimal).upto 2)),
    plus (.seq (chr sep) ((Re.cls env.decimal).times 3)),
    chr radix,
    .star (.cls env.decimal)]

/-- `PATTERN_NUMBER_2`, clevercsv/_regexes.py:38-40. -/
def reNumber2 (env : PyEnv) : Re := reThousands env ',' '.'

/-- `PATTERN_NUMBER_3`, clevercsv/_regexes.py:42-44. -/
def reNumber3 (env : PyEnv) : Re := reThousands env '.' ','

/-- `(\:\d{1,5})?`. -/
def rePort (env : PyEnv) : Re := opt (.seq (chr ':') ((Re.cls env.decimal).between 1 5))

/-- `PATTERN_URL`, clevercsv/_regexes.py:50-63. -/
def reUrl (env : PyEnv) : Re :=
  let low : Re := .cls (rng 'a' 'z')
  let d13 : Re := (Re.cls env.decimal).between 1 3
  cat [
    opt (cat [.alt (.seq (lit "http".toList) (opt (chr 's'))) (lit "ftp".toList),
      lit "://".toList, .nahead (chr '-')]),
    any [
      cat [
        plus (.seq (plus (.cls (fun c => env.letter c || env.number c || c = '-'))) (chr '.')),
        .alt (low.atLeast 2) (lit "local".toList),
        opt (.seq (chr '.') (low.between 2 3))],
      .seq (lit "localhost".toList) (rePort env),
      cat [d13, chr '.', d13, chr '.', d13, chr '.', d13, rePort env]],
    opt (.seq (chr '/') (.star (.cls (fun c => env.letter c || env.number c ||
      oneOf "_/()~?=&%-#.:".toList c)))),
    opt (.seq (chr '.') (plus low))]

/-- `[a-zA-Z0-9]`. -/
def asciiAlnum (c : Char) : Bool := rng 'a' 'z' c || rng 'A' 'Z' c || rng '0' '9' c

/-- `PATTERN_EMAIL`, clevercsv/_regexes.py:65-67. -/
def reEmail : Re :=
  cat [.bol, plus (.cls (fun c => asciiAlnum c || oneOf "_.+-".toList c)), chr '@',
    plus (.cls (fun c => asciiAlnum c || c = '-')), chr '.',
    plus (.cls (fun c => asciiAlnum c || oneOf "-.".toList c)), .eol]

/-- `PATTERN_IPV4`, clevercsv/_regexes.py:69. -/
def reIpv4 (env : PyEnv) : Re :=
  let d13 : Re := (Re.cls env.decimal).between 1 3
  .seq ((Re.seq d13 (chr '.')).times 3) d13

/-- `(0[0-9]|1[0-9]|2[0-3])`. -/
def reHour2 : Re :=
  any [.seq (chr '0') (.cls (rng '0' '9')), .seq (chr '1') (.cls (rng '0' '9')),
    .seq (chr '2') (.cls (rng '0' '3'))]

/-- `([0-5][0-9])`. -/
def reMin : Re := .seq (.cls (rng '0' '5')) (.cls (rng '0' '9'))

/-- `PATTERN_TIME_HHMMSSZZ`, clevercsv/_regexes.py:75-85. -/
def reTimeHHMMSSZZ : Re :=
  cat [reHour2, chr ':', reMin, chr ':', reMin, .cls (oneOf ['+', '-']),
    .seq (.cls (rng '0' '1')) (.cls (rng '0' '9')), chr ':', reMin]

/-- `PATTERN_TIME_HHMMSS`, clevercsv/_regexes.py:87-89. -/
def reTimeHHMMSS : Re := cat [reHour2, chr ':', reMin, chr ':', reMin]

/-- `PATTERN_TIME_HHMM_1`, clevercsv/_regexes.py:91-93. -/
def reTimeHHMM1 : Re := cat [reHour2, chr ':', reMin]

/-- `PATTERN_TIME_HHMM_2`, clevercsv/_regexes.py:95-97. -/
def reTimeHHMM2 : Re := .seq reHour2 reMin

/-- `PATTERN_TIME_HH`, clevercsv/_regexes.py:99-101 (the same pattern as `PATTERN_TIME_HHMM_2`). -/
def reTimeHH : Re := .seq reHour2 reMin

/-- `PATTERN_TIME_HMM`, clevercsv/_regexes.py:103-105. -/
def reTimeHMM : Re :=
  cat [any [.cls (rng '0' '9'), .seq (chr '1') (.cls (rng '0' '9')),
    .seq (chr '2') (.cls (rng '0' '3'))], chr ':', reMin]

/-- `(0[1-9]|1[0-2])`. -/
def reMonth2 : Re :=
  .alt (.seq (chr '0') (.cls (rng '1' '9'))) (.seq (chr '1') (.cls (rng '0' '2')))

/-- `(0?[1-9]|1[0-2])`. -/
def reMonth : Re :=
  .alt (.seq (opt (chr '0')) (.cls (rng '1' '9'))) (.seq (chr '1') (.cls (rng '0' '2')))

/-- `([1-9]|1[0-2])`. -/
def reMonth1 : Re := .alt (.cls (rng '1' '9')) (.seq (chr '1') (.cls (rng '0' '2')))

/-- `[12]\d|3[01]`. -/
def reDayTail (env : PyEnv) : Re :=
  .alt (.seq (.cls (oneOf ['1', '2'])) (.cls env.decimal))
    (.seq (chr '3') (.cls (oneOf ['0', '1'])))

/-- `(0[1-9]|[12]\d|3[01])`. -/
def reDay2 (env : PyEnv) : Re := .alt (.seq (chr '0') (.cls (rng '1' '9'))) (reDayTail env)

/-- `(0?[1-9]|[12]\d|3[01])`. -/
def reDay (env : PyEnv) : Re := .alt (.seq (opt (chr '0')) (.cls (rng '1' '9'))) (reDayTail env)

/-- `([1-9]|[12]\d|3[01])`. -/
def reDay1 (env : PyEnv) : Re := .alt (.cls (rng '1' '9')) (reDayTail env)

/-- `([12]\d{3}|\d{2})`. -/
def reYear (env : PyEnv) : Re :=
  .alt (.seq (.cls (oneOf ['1', '2'])) ((Re.cls env.decimal).times 3))
    ((Re.cls env.decimal).times 2)

/-- `(?P<sepk>[-\/. ]) mid (?P=sepk) last`. -/
def reSep (k : Nat) (mid last : Re) : Re :=
  cat [.grp k (.cls (oneOf "-/. ".toList)), mid, .bref k, last]

/-- `PATTERN_DATE`, clevercsv/_regexes.py:114-165; the groups are `sep1` to `sep5`. -/
def reDate (env : PyEnv) : Re :=
  any [
    .seq reMonth2 (.alt (.seq (reDay2 env) (reYear env)) (reSep 1 (reDay env) (reYear env))),
    .seq (reDay2 env) (.alt (.seq reMonth2 (reYear env)) (reSep 2 reMonth (reYear env))),
    .seq (reYear env) (any [
      reSep 3 reMonth (reDay env),
      cat [chr '年', reMonth, chr '月', reDay env, chr '日'],
      cat [chr '년', reMonth, chr '월', reDay env, chr '일'],
      .seq reMonth2 (reDay2 env)]),
    .alt
      (.seq reMonth1 (reSep 4 (reDay env) (reYear env)))
      (.seq (reDay1 env) (reSep 5 reMonth (reYear env)))]

/-- `SPECIALS_ALLOWED`, clevercsv/_regexes.py:173-227, as code points. -/
def specialsAllowed : List Nat :=
  [0x2d, 0x5f, 0x2e, 0x6d4, 0x3002, 0xfe52, 0xff0e, 0xff61, 0x28, 0x29, 0x27ee, 0x27ef, 0xff08,
    0xff09, 0x3f, 0xbf, 0x37e, 0x55e, 0x61f, 0x1367, 0x1945, 0x2047, 0x2048, 0x2049, 0x2cfa, 0x2cfb,
    0x2e2e, 0xa60f, 0xa6f7, 0xfe16, 0xfe56, 0xff1f, 69955, 125279, 0x21, 0xa1, 0x1c3, 0x55c, 0x7f9,
    0x109f, 0x1944, 0x203c, 0x2048, 0x2049, 0xaa77, 0xfe15, 0xfe57, 0xff01, 125278]

/-- `QUOTED_SPECIALS_ALLOWED`, clevercsv/_regexes.py:230-238. -/
def quotedSpecialsAllowed : List Nat := [0x2c, 0x60c, 0x1363, 0x1802, 0x1808, 0xff0c, 0xfe50]

/-- Common part of `PATTERN_ALPHANUM` and `PATTERN_ALPHANUM_QUOTED`. -/
def reAlnum (env : PyEnv) (specials : List Nat) : Re :=
  let body : Char → Bool := fun c =>
    env.number c || env.letter c || c = ' ' || specials.contains c.toNat
  .alt
    (cat [opt (.cls env.number), plus (.cls env.letter), .star (.cls body)])
    (.seq (opt (.cls env.letter)) (plus (.cls body)))

/-- `PATTERN_ALPHANUM`, clevercsv/_regexes.py:243-253. -/
def reAlphanum (env : PyEnv) : Re := reAlnum env specialsAllowed

/-- `PATTERN_ALPHANUM_QUOTED`, clevercsv/_regexes.py:259-269. -/
def reAlphanumQuoted (env : PyEnv) : Re := reAlnum env (specialsAllowed ++ quotedSpecialsAllowed)

/-- `PATTERN_CURRENCY`, clevercsv/_regexes.py:275; `.` is any character but a line feed. -/
def reCurrency (env : PyEnv) : Re :=
  cat [.cls env.currency, opt (.cls env.reSpace), .grp 1 (.star (.cls (fun c => c ≠ '\n')))]

/-- `PATTERN_UNIX_PATH`, clevercsv/_regexes.py:281-283. -/
def reUnixPath : Re :=
  cat [opt (.cls (oneOf ['~', '.'])),
    plus (.seq (chr '/') (plus (.cls (fun c => asciiAlnum c || oneOf ".-_".toList c)))),
    opt (chr '/')]

end Clever
