import Verif.Proofs.BacktrackNested
import Verif.Model.TypePatterns
import Verif.Model.Potential

/-!
# C120: the patterns of the type detection do not backtrack without bound

`Re.search` is the backtracking search with its steps.  It finds what `fullmatch` finds (`C120_search`), and `Re.subRun`
gives the text that `sub` gives (`C120_sub`), so that the steps are the steps of the functions that the model uses.
-/

namespace Clever

/-- The backtracking search finds the match of `fullmatch`, with the same groups. -/
theorem C120_search (r : Re) (s : Str) : (r.search s).2 = r.fullmatch s := search_fullmatch r s

/-- The search at every position gives the text of `sub`. -/
theorem C120_sub (r : Re) (rep s : Str) : (r.subRun rep 0 [] s).2 = r.sub rep s := by rw [subRun_eq]; rfl

/-- The patterns below are those of `DEFAULT_TYPE_REGEXES`. -/
theorem C120_patterns (env : PyEnv) : defaultPatterns env = (defaultRegexes env).map (fun p => (p.1, Pat.ofRe p.2)) := rfl

/-- Every pattern decides a cell of `n` characters in at most `190000 (n + 1)⁴` steps. -/
theorem C120_polynomial (env : PyEnv) (h : env.Ascii) (name : String) (r : Re) (hr : (name, r) ∈ defaultRegexes env) (s : Str) :
    (r.search s).1 ≤ 190000 * (s.length + 1) ^ 4 := by
  have hu := poly_url (env := env) (h.letter '.' (by decide)) (h.number '.' (by decide))
  obtain ⟨t1, t2, t3, t4, t5, t6⟩ := poly_times
  simp only [defaultRegexes, List.mem_cons, Prod.mk.injEq, List.not_mem_nil, or_false] at hr
  rcases hr with h | h | h | h | h | h | h | h | h | h | h | h | h | h | h | h | h <;> rw [h.2]
  · exact poly_number1.within (by decide) (by decide) s
  · exact (poly_thousands _ _).within (by decide) (by decide) s
  · exact (poly_thousands _ _).within (by decide) (by decide) s
  · exact hu.within (by decide) (by decide) s
  · exact poly_email.within (by decide) (by decide) s
  · exact poly_ipv4.within (by decide) (by decide) s
  · exact (poly_alnum _).within (by decide) (by decide) s
  · exact (poly_alnum _).within (by decide) (by decide) s
  · exact t2.within (by decide) (by decide) s
  · exact t3.within (by decide) (by decide) s
  · exact t4.within (by decide) (by decide) s
  · exact t5.within (by decide) (by decide) s
  · exact t6.within (by decide) (by decide) s
  · exact t1.within (by decide) (by decide) s
  · exact poly_currency.within (by decide) (by decide) s
  · exact poly_unixPath.within (by decide) (by decide) s
  · exact poly_date.within (by decide) (by decide) s

/-- The times and the addresses take a bounded number of steps, however long the cell is; dates and currencies a number
that is linear in the length, thousands and alphanumeric cells a quadratic one, and addresses of mail a cubic one. -/
theorem C120_degrees (env : PyEnv) (s : Str) :
    (∀ r ∈ [reTimeHHMMSSZZ, reTimeHHMMSS, reTimeHHMM1, reTimeHHMM2, reTimeHH, reTimeHMM, reIpv4 env], (r.search s).1 ≤ 2081) ∧
    (∀ r ∈ [reDate env, reCurrency env], (r.search s).1 ≤ 3200 * (s.length + 1)) ∧
    (∀ r ∈ [reNumber2 env, reNumber3 env, reAlphanum env, reAlphanumQuoted env], (r.search s).1 ≤ 1100 * (s.length + 1) ^ 2) ∧
    (reEmail.search s).1 ≤ 100 * (s.length + 1) ^ 3 := by
  obtain ⟨t1, t2, t3, t4, t5, t6⟩ := poly_times
  refine ⟨fun r hr => ?_, fun r hr => ?_, fun r hr => ?_, poly_email.within (by decide) (by decide) s⟩
  · simp only [List.mem_cons, List.not_mem_nil, or_false] at hr
    refine Nat.le_trans (m := 2081 * (s.length + 1) ^ 0) ?_ (by simp)
    rcases hr with h | h | h | h | h | h | h <;> rw [h]
    · exact t1.within (by decide) (by decide) s
    · exact t2.within (by decide) (by decide) s
    · exact t3.within (by decide) (by decide) s
    · exact t4.within (by decide) (by decide) s
    · exact t5.within (by decide) (by decide) s
    · exact t6.within (by decide) (by decide) s
    · exact poly_ipv4.within (by decide) (by decide) s
  · simp only [List.mem_cons, List.not_mem_nil, or_false] at hr
    refine Nat.le_trans (m := 3200 * (s.length + 1) ^ 1) ?_ (by simp)
    rcases hr with h | h <;> rw [h]
    · exact poly_date.within (by decide) (by decide) s
    · exact poly_currency.within (by decide) (by decide) s
  · simp only [List.mem_cons, List.not_mem_nil, or_false] at hr
    rcases hr with h | h | h | h <;> rw [h]
    · exact (poly_thousands _ _).within (by decide) (by decide) s
    · exact (poly_thousands _ _).within (by decide) (by decide) s
    · exact (poly_alnum _).within (by decide) (by decide) s
    · exact (poly_alnum _).within (by decide) (by decide) s

/-- The removal of the URLs gives `filterUrls` in at most `190000 n (n + 1)⁴` steps. -/
theorem C120_filter_urls (env : PyEnv) (h : env.Ascii) (data : Str) :
    ((reUrl env).subRun ['U'] 0 [] data).2 = filterUrls env data ∧
    ((reUrl env).subRun ['U'] 0 [] data).1 ≤ data.length * (190000 * (data.length + 1) ^ 4) :=
  ⟨C120_sub _ _ _, by
    rw [subRun_eq]
    exact (poly_url (env := env) (h.letter '.' (by decide)) (h.number '.' (by decide))).subSteps data 0 []⟩

/-- The removal of the URLs is not linear: on a word of `n` letters it takes at least `n (n + 1) / 2` steps, as every
position looks for the dot after the word again. -/
theorem C120_filter_urls_quadratic (env : PyEnv) (h : env.Ascii) (n : Nat) :
    n * (n + 1) / 2 ≤ ((reUrl env).subRun ['U'] 0 [] (List.replicate n 'a')).1 := by
  rw [subRun_eq]
  have := url_sub_visits env (h.letter 'a' (by decide)) n []
  simp only
  omega

/-- The measure does tell expressions apart: for `(?:a+)*` there is a cell of every length for which the search takes
exponentially many steps. -/
theorem C120_nested (n : Nat) :
    2 ^ n ≤ ((Re.star (Re.plus (Re.chr 'a'))).search (List.replicate n 'a' ++ ['b'])).1 := nested_steps n

/-- Some searches: a cell that is a number, one that is not, an address of mail, and a text with a URL. -/
example : ((reNumber1 asciiEnv).search "12.5e3".toList).2.isSome = true ∧ ((reNumber1 asciiEnv).search "12.5e3".toList).1 ≤ 200 ∧
    ((reNumber1 asciiEnv).search "12.5e3x".toList).2.isSome = false ∧ (reEmail.search "a@b.c".toList).2.isSome = true ∧
    ((reUrl asciiEnv).subRun ['U'] 0 [] "x,http://a.bc,y".toList).2 = "x,U,y".toList := by decide +kernel

/-- With the nested repetition twenty characters already take a million steps. -/
example : 1048576 ≤ ((Re.star (Re.plus (Re.chr 'a'))).search (List.replicate 20 'a' ++ ['b'])).1 := C120_nested 20

end Clever
