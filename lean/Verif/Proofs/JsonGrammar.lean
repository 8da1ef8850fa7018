import Verif.Proofs.JsonValid
import Verif.Spec.JsonGrammar

/-!
# The texts that `json.loads` accepts
-/

namespace Clever

open Spec

theorem isDig_eq (c : Char) : isDig c = digit c := by
  unfold isDig digit
  simp only [Char.le_def, UInt32.le_iff_toNat_le]
  rfl

theorem isHex_eq (c : Char) : isHex c = hexDig c := by
  unfold isHex hexDig
  rw [isDig_eq]
  simp only [Char.le_def, UInt32.le_iff_toNat_le]
  rfl

/-! ## White space -/

theorem jWs_split (s : Str) : ∃ a, IsJsonSpace a ∧ s = a ++ jWs s := by
  induction s with
  | nil => exact ⟨[], by simp [IsJsonSpace], rfl⟩
  | cons c s ih =>
    unfold jWs
    split
    · rename_i h
      obtain ⟨a, ha, hs⟩ := ih
      refine ⟨c :: a, ?_, by rw [List.cons_append, ← hs]⟩
      intro x hx
      rcases List.mem_cons.1 hx with rfl | hx
      · exact h
      · exact ha x hx
    · exact ⟨[], by simp [IsJsonSpace], rfl⟩

theorem jWs_skip {a : Str} (h : IsJsonSpace a) (s : Str) : jWs (a ++ s) = jWs s := by
  induction a with
  | nil => rfl
  | cons c a ih =>
    rw [List.cons_append, jWs, if_pos (h c (by simp))]
    exact ih (fun x hx => h x (List.mem_cons_of_mem _ hx))

theorem jWs_all {a : Str} (h : IsJsonSpace a) : jWs a = [] := by
  have := jWs_skip h []
  rwa [List.append_nil] at this

theorem IsJsonSpace.append {a b : Str} (ha : IsJsonSpace a) (hb : IsJsonSpace b) : IsJsonSpace (a ++ b) := by
  intro x hx
  rcases List.mem_append.1 hx with h | h
  · exact ha x h
  · exact hb x h

/-! ## Strings -/

theorem jString_sound (s : Str) : ∀ m r, jString m s = .ok r →
    match m with
    | .text => ∃ cs : List Str, (∀ x ∈ cs, IsJsonChar x) ∧ s = cs.flatten ++ '"' :: r
    | .esc => ∃ (e : Str) (cs : List Str), IsJsonChar ('\\' :: e) ∧ (∀ x ∈ cs, IsJsonChar x) ∧ s = e ++ (cs.flatten ++ '"' :: r)
    | .hex n => 1 ≤ n → ∃ (hs : Str) (cs : List Str), hs.length = n ∧ AllIn hexDig hs ∧ (∀ x ∈ cs, IsJsonChar x) ∧
        s = hs ++ (cs.flatten ++ '"' :: r) := by
  induction s with
  | nil => intro m r h; cases m <;> simp [jString] at h
  | cons c s ih =>
    intro m r h
    cases m with
    | text =>
      simp only [jString] at h
      split at h
      · rename_i hc
        simp only [Except.ok.injEq] at h
        subst h; subst hc
        exact ⟨[], by simp, rfl⟩
      · rename_i h1
        split at h
        · rename_i h2
          obtain ⟨e, cs, he, hcs, hs⟩ := ih _ _ h
          refine ⟨('\\' :: e) :: cs, ?_, ?_⟩
          · intro x hx
            rcases List.mem_cons.1 hx with rfl | hx
            · exact he
            · exact hcs x hx
          · rw [h2, hs]; simp
        · rename_i h2
          split at h
          · cases h
          · rename_i h3
            obtain ⟨cs, hcs, hs⟩ := ih _ _ h
            refine ⟨[c] :: cs, ?_, ?_⟩
            · intro x hx
              rcases List.mem_cons.1 hx with rfl | hx
              · exact Or.inl ⟨c, h1, h2, by omega, rfl⟩
              · exact hcs x hx
            · rw [hs]; simp
    | esc =>
      simp only [jString] at h
      split at h
      · rename_i hc
        obtain ⟨hs, cs, hl, hh, hcs, he⟩ := ih _ _ h (by decide)
        exact ⟨'u' :: hs, cs, Or.inr (Or.inr ⟨hs, hl, hh, rfl⟩), hcs, by rw [he, hc]; simp⟩
      · split at h
        · rename_i hc
          obtain ⟨cs, hcs, hs⟩ := ih _ _ h
          refine ⟨[c], cs, Or.inr (Or.inl ⟨c, ?_, rfl⟩), hcs, by rw [hs]; simp⟩
          simpa using hc
        · cases h
    | hex n =>
      intro hn
      simp only [jString] at h
      split at h
      · rename_i hc
        rw [isHex_eq] at hc
        split at h
        · obtain ⟨cs, hcs, hs⟩ := ih _ _ h
          refine ⟨[c], cs, by simp; omega, ?_, hcs, by rw [hs]; simp⟩
          intro x hx
          rw [List.mem_singleton.1 hx]; exact hc
        · obtain ⟨hs, cs, hl, hh, hcs, he⟩ := ih _ _ h (by omega)
          refine ⟨c :: hs, cs, by simp; omega, ?_, hcs, by rw [he]; simp⟩
          intro x hx
          rcases List.mem_cons.1 hx with rfl | hx
          · exact hc
          · exact hh x hx
      · cases h

theorem jString_char {x : Str} (hx : IsJsonChar x) (t : Str) : jString .text (x ++ t) = jString .text t := by
  rcases hx with ⟨c, h1, h2, h3, rfl⟩ | ⟨c, hc, rfl⟩ | ⟨ds, hl, hd, rfl⟩
  · simp only [List.cons_append, List.nil_append, jString]
    rw [if_neg h1, if_neg h2, if_neg (by omega)]
  · have hu : c ≠ 'u' := by rintro rfl; revert hc; decide
    simp only [List.cons_append, List.nil_append, jString]
    rw [if_neg (by decide), if_pos trivial, if_neg hu, if_pos (by simpa using hc)]
  · match ds, hl with
    | [a, b, c, d], _ =>
      have g : ∀ x ∈ [a, b, c, d], isHex x = true := fun x hx => by rw [isHex_eq]; exact hd x hx
      simp only [List.cons_append, List.nil_append, jString]
      rw [if_neg (by decide), if_pos trivial]
      simp only [if_true, jString, g a (by simp), g b (by simp), g c (by simp), g d (by simp)]
      simp [jString, g b, g c, g d]

theorem jString_complete {cs : List Str} (h : ∀ x ∈ cs, IsJsonChar x) (r : Str) :
    jString .text (cs.flatten ++ '"' :: r) = .ok r := by
  induction cs with
  | nil => simp [jString]
  | cons x cs ih =>
    rw [List.flatten_cons, List.append_assoc, jString_char (h x (by simp))]
    exact ih (fun y hy => h y (List.mem_cons_of_mem _ hy))

/-! ## Numbers -/

/-- The text does not go on with a digit, a fraction or an exponent. -/
def Stops (r : Str) : Prop := ∀ c, r.head? = some c → digit c = false ∧ c ≠ '.' ∧ c ≠ 'e' ∧ c ≠ 'E'

theorem dropDigits {ds r : Str} (hd : AllIn digit ds) (hr : ∀ c, r.head? = some c → digit c = false) :
    (ds ++ r).dropWhile isDig = r ∧ (ds ++ r).takeWhile isDig = ds := by
  induction ds with
  | nil =>
    cases r with
    | nil => simp
    | cons c r => simp [isDig_eq, hr c rfl]
  | cons c ds ih =>
    have := ih (fun x hx => hd x (List.mem_cons_of_mem _ hx))
    simp [isDig_eq, hd c (by simp)] at this ⊢
    exact this

theorem takeDrop (s : Str) : AllIn digit (s.takeWhile isDig) ∧ s = s.takeWhile isDig ++ s.dropWhile isDig := by
  refine ⟨?_, (List.takeWhile_append_dropWhile).symm⟩
  intro c hc
  rw [← isDig_eq]
  induction s with
  | nil => simp at hc
  | cons x s ih =>
    rw [List.takeWhile_cons] at hc
    split at hc
    · rename_i hx
      rcases List.mem_cons.1 hc with rfl | hc
      · exact hx
      · exact ih hc
    · simp at hc

/-- An optional fraction. -/
def IsFrac (f : Str) : Prop := f = [] ∨ ∃ ds, ds ≠ [] ∧ AllIn digit ds ∧ f = '.' :: ds

theorem jFrac_sound (s : Str) : ∃ f, IsFrac f ∧ s = f ++ jFrac s := by
  unfold jFrac
  split
  · rename_i c d rest
    split
    · rename_i h
      obtain ⟨h1, h2⟩ := takeDrop rest
      refine ⟨'.' :: d :: rest.takeWhile isDig, Or.inr ⟨d :: rest.takeWhile isDig, by simp, ?_, rfl⟩, ?_⟩
      · intro x hx
        rcases List.mem_cons.1 hx with rfl | hx
        · rw [← isDig_eq]; exact h.2
        · exact h1 x hx
      · rw [h.1, List.cons_append, List.cons_append, ← h2]
    · exact ⟨[], Or.inl rfl, rfl⟩
  · exact ⟨[], Or.inl rfl, rfl⟩

theorem jExp_sound (s : Str) : ∃ e, (e = [] ∨ IsExponent digit e) ∧ s = e ++ jExp s := by
  unfold jExp
  split
  · rename_i e rest
    split
    · rename_i he
      split
      · rename_i d r hr
        split
        · rename_i hd
          obtain ⟨h1, h2⟩ := takeDrop r
          have hg : ∃ g, IsSign g ∧ rest = g ++ d :: r := by
            unfold jSign at hr
            split at hr
            · split at hr
              · rename_i g r' hg
                subst hr
                exact ⟨[g], by rcases hg with rfl | rfl <;> simp [IsSign], rfl⟩
              · exact ⟨[], Or.inl rfl, hr⟩
            · exact ⟨[], Or.inl rfl, hr⟩
          obtain ⟨g, hg, hrest⟩ := hg
          refine ⟨e :: (g ++ d :: r.takeWhile isDig), Or.inr ⟨e, g, d :: r.takeWhile isDig, he, hg, by simp, ?_, rfl⟩, ?_⟩
          · intro x hx
            rcases List.mem_cons.1 hx with rfl | hx
            · rw [← isDig_eq]; exact hd
            · exact h1 x hx
          · rw [hrest]; simp
        · exact ⟨[], Or.inl rfl, rfl⟩
      · exact ⟨[], Or.inl rfl, rfl⟩
    · exact ⟨[], Or.inl rfl, rfl⟩
  · exact ⟨[], Or.inl rfl, rfl⟩

theorem jFrac_complete {f e r : Str} (hf : IsFrac f) (he : e = [] ∨ IsExponent digit e) (hr : Stops r) :
    jFrac (f ++ (e ++ r)) = e ++ r := by
  have hd : ∀ c, (e ++ r).head? = some c → digit c = false ∧ c ≠ '.' := by
    intro c hc
    rcases he with rfl | ⟨x, g, ds, hx, -, -, -, rfl⟩
    · exact ⟨(hr c hc).1, (hr c hc).2.1⟩
    · simp only [List.cons_append, List.head?_cons, Option.some.injEq] at hc
      subst hc
      rcases hx with rfl | rfl <;> decide
  rcases hf with rfl | ⟨ds, hne, hds, rfl⟩
  · rw [List.nil_append]
    match h : e ++ r with
    | [] => rfl
    | [c] => rfl
    | c :: d :: t =>
      unfold jFrac
      simp only []
      rw [if_neg]
      intro hc
      exact (hd c (by rw [h]; rfl)).2 hc.1
  · cases ds with
    | nil => exact absurd rfl hne
    | cons d ds =>
      simp only [List.cons_append, jFrac]
      rw [if_pos ⟨trivial, by rw [isDig_eq]; exact hds d (by simp)⟩]
      exact (dropDigits (fun x hx => hds x (List.mem_cons_of_mem _ hx)) (fun c hc => (hd c hc).1)).1

theorem jExp_complete {e r : Str} (he : e = [] ∨ IsExponent digit e) (hr : Stops r) : jExp (e ++ r) = r := by
  rcases he with rfl | ⟨x, g, ds, hx, hg, hne, hds, rfl⟩
  · cases r with
    | nil => rfl
    | cons c r =>
      simp only [List.nil_append, jExp]
      rw [if_neg]
      rintro (h | h)
      · exact (hr c rfl).2.2.1 h
      · exact (hr c rfl).2.2.2 h
  · simp only [List.cons_append, jExp]
    rw [if_pos hx]
    cases ds with
    | nil => exact absurd rfl hne
    | cons d ds =>
      have hd := hds d (by simp)
      have hsign : jSign (g ++ d :: ds ++ r) = d :: (ds ++ r) := by
        rcases hg with rfl | rfl | rfl
        · simp only [List.nil_append, List.cons_append, jSign]
          rw [if_neg]
          rintro (rfl | rfl) <;> revert hd <;> decide
        · simp [jSign]
        · simp [jSign]
      rw [hsign]
      simp only [isDig_eq, hd, if_true]
      exact (dropDigits (fun x hx => hds x (List.mem_cons_of_mem _ hx)) (fun c hc => (hr c hc).1)).1

theorem dg_of_digit {c : Char} (h : digit c = true) (h0 : c ≠ '0') : ∃ n, 1 ≤ n ∧ n ≤ 9 ∧ c = dg n := by
  simp only [digit, Bool.and_eq_true, decide_eq_true_eq] at h
  refine ⟨c.toNat - 48, ?_, by omega, ?_⟩
  · have : c.toNat ≠ 48 := fun e => h0 (Char.toNat_inj.1 e)
    omega
  · unfold dg
    have : 48 + (c.toNat - 48) = c.toNat := by omega
    rw [this]; simp

theorem digit_of_dg {n : Nat} (h : n ≤ 9) : digit (dg n) = true := by
  have : ∀ k : Fin 10, digit (dg k) = true := by decide
  exact this ⟨n, by omega⟩

theorem dg_ne_zero {n : Nat} (h1 : 1 ≤ n) (h : n ≤ 9) : dg n ≠ '0' := by
  have : ∀ k : Fin 10, 1 ≤ k.val → dg k ≠ '0' := by decide
  exact this ⟨n, by omega⟩ h1

theorem jDigits_sound {s ds r : Str} (h : jDigits s = some (ds, r)) : IsWhole digit ds ∧ s = ds ++ r := by
  unfold jDigits at h
  split at h
  · cases h
  · rename_i c rest
    split at h
    · rename_i hc
      simp only [Option.some.injEq, Prod.mk.injEq] at h
      obtain ⟨rfl, rfl⟩ := h
      exact ⟨Or.inl (by rw [hc]), rfl⟩
    · rename_i h0
      split at h
      · rename_i hc
        rw [isDig_eq] at hc
        simp only [Option.some.injEq, Prod.mk.injEq] at h
        obtain ⟨rfl, rfl⟩ := h
        obtain ⟨h1, h2⟩ := takeDrop rest
        obtain ⟨n, hn1, hn9, rfl⟩ := dg_of_digit hc h0
        exact ⟨Or.inr ⟨n, _, hn1, hn9, h1, rfl⟩, by rw [List.cons_append, ← h2]⟩
      · cases h

theorem jDigits_complete {n r : Str} (hn : IsWhole digit n)
    (hr : n ≠ ['0'] → ∀ c, r.head? = some c → digit c = false) : jDigits (n ++ r) = some (n, r) := by
  rcases hn with rfl | ⟨k, ds, h1, h9, hds, rfl⟩
  · simp [jDigits]
  · have hz := dg_ne_zero h1 h9
    have := dropDigits hds (hr (by intro h; simp at h; exact hz h.1))
    simp only [List.cons_append, jDigits]
    rw [if_neg hz, if_pos (by rw [isDig_eq]; exact digit_of_dg h9), this.1, this.2]

theorem jNumber_sound {env : PyEnv} {s r : Str} (h : jNumber env s = .ok r) :
    ∃ n f e, IsWhole digit n ∧ IsFrac f ∧ (e = [] ∨ IsExponent digit e) ∧
      (f = [] → e = [] → env.maxStrDigits = 0 ∨ n.length ≤ env.maxStrDigits) ∧ s = n ++ (f ++ (e ++ r)) := by
  unfold jNumber at h
  split at h
  · cases h
  · rename_i ds rest hds
    obtain ⟨hw, hs⟩ := jDigits_sound hds
    obtain ⟨f, hf, h1⟩ := jFrac_sound rest
    obtain ⟨e, he, h2⟩ := jExp_sound (jFrac rest)
    simp only [] at h
    split at h
    · rename_i hlt
      unfold jFraction at hlt h
      rw [decide_eq_true_eq] at hlt
      simp only [Except.ok.injEq] at h
      refine ⟨ds, f, e, hw, hf, he, ?_, ?_⟩
      · rintro rfl rfl
        rw [List.nil_append] at h1 h2
        rw [← h2, ← h1] at hlt
        simp at hlt
      · rw [hs, ← h, ← h2, ← h1]
    · split at h
      · cases h
      · rename_i hlim
        simp only [Except.ok.injEq] at h
        refine ⟨ds, [], [], hw, Or.inl rfl, Or.inl rfl, fun _ _ => ?_, by rw [hs, h]; rfl⟩
        omega

theorem jNumber_complete {env : PyEnv} {n f e r : Str} (hn : IsWhole digit n) (hf : IsFrac f)
    (he : e = [] ∨ IsExponent digit e) (hl : f = [] → e = [] → env.maxStrDigits = 0 ∨ n.length ≤ env.maxStrDigits)
    (hr : Stops r) : jNumber env (n ++ (f ++ (e ++ r))) = .ok r := by
  have hd : ∀ c, (f ++ (e ++ r)).head? = some c → digit c = false := by
    intro c hc
    rcases hf with rfl | ⟨ds, -, -, rfl⟩
    · rcases he with rfl | ⟨x, g, ds, hx, -, -, -, rfl⟩
      · exact (hr c hc).1
      · simp only [List.nil_append, List.cons_append, List.head?_cons, Option.some.injEq] at hc
        subst hc
        rcases hx with rfl | rfl <;> decide
    · simp only [List.cons_append, List.head?_cons, Option.some.injEq] at hc
      subst hc; decide
  unfold jNumber
  rw [jDigits_complete hn (fun _ => hd)]
  have hfr : jFraction (f ++ (e ++ r)) = (decide (r.length < (f ++ (e ++ r)).length), r) := by
    unfold jFraction
    rw [jFrac_complete hf he hr, jExp_complete he hr]
  simp only [hfr]
  split
  · rfl
  · rename_i hlt
    simp only [List.length_append, decide_eq_true_eq] at hlt
    have h1 : f = [] := List.length_eq_zero_iff.1 (by omega)
    have h2 : e = [] := List.length_eq_zero_iff.1 (by omega)
    rw [if_neg (by have := hl h1 h2; omega), h1, h2]
    rfl

/-! ## Scalars -/

theorem jLit_sound : ∀ {p s r : Str}, jLit p s = some r → s = p ++ r
  | [], s, r, h => by simpa [jLit] using h
  | _ :: _, [], r, h => by simp [jLit] at h
  | p :: ps, c :: cs, r, h => by
    simp only [jLit] at h
    split at h
    · rename_i hp
      rw [hp, jLit_sound h]; rfl
    · cases h

theorem jLit_complete (p r : Str) : jLit p (p ++ r) = some r := by
  induction p with
  | nil => rfl
  | cons c p ih => simp only [List.cons_append, jLit, if_true]; exact ih

theorem jLit_ne {p c : Char} (h : p ≠ c) (ps cs : Str) : jLit (p :: ps) (c :: cs) = none := by
  simp [jLit, h]

theorem jScalar_sound {env : PyEnv} {s r : Str} {d : Nat} (h : jScalar env s = .ok r) :
    ∃ v, IsJson pythonWords env.maxStrDigits .value d v ∧ s = v ++ r := by
  have lits : ∀ {p : Str}, p ∈ pythonWords → ∀ {r'}, jLit p s = some r' → (Except.ok r' : Except JFail Str) = .ok r →
      ∃ v, IsJson pythonWords env.maxStrDigits .value d v ∧ s = v ++ r := by
    intro p hp r' hl he
    simp only [Except.ok.injEq] at he
    subst he
    exact ⟨p, .word hp, jLit_sound hl⟩
  unfold jScalar at h
  split at h
  · rename_i hl; exact lits (by decide) hl h
  split at h
  · rename_i hl; exact lits (by decide) hl h
  split at h
  · rename_i hl; exact lits (by decide) hl h
  split at h
  · rename_i hl; exact lits (by decide) hl h
  split at h
  · rename_i hl; exact lits (by decide) hl h
  split at h
  · rename_i hl; exact lits (by decide) hl h
  split at h
  · rename_i hl
    obtain ⟨n, f, e, hn, hf, he, hlim, hs⟩ := jNumber_sound h
    have := jLit_sound hl
    refine ⟨['-'] ++ (n ++ (f ++ e)), .number ⟨['-'], n, f, e, Or.inr rfl, hn, hf, he, hlim, rfl⟩, ?_⟩
    rw [this, hs]
    simp
  · obtain ⟨n, f, e, hn, hf, he, hlim, hs⟩ := jNumber_sound h
    refine ⟨[] ++ (n ++ (f ++ e)), .number ⟨[], n, f, e, Or.inl rfl, hn, hf, he, hlim, rfl⟩, ?_⟩
    rw [hs]
    simp

theorem jScalar_word {env : PyEnv} {w r : Str} (h : w ∈ pythonWords) : jScalar env (w ++ r) = .ok r := by
  simp only [pythonWords, jsonWords, List.cons_append, List.nil_append, List.mem_cons, List.not_mem_nil, or_false] at h
  rcases h with rfl | rfl | rfl | rfl | rfl | rfl <;> simp [jScalar, jLit]

theorem isWhole_head {n : Str} (hn : IsWhole digit n) : ∃ c t, n = c :: t ∧ digit c = true := by
  rcases hn with rfl | ⟨k, ds, h1, h9, hds, rfl⟩
  · exact ⟨_, _, rfl, by decide⟩
  · exact ⟨_, _, rfl, digit_of_dg h9⟩

theorem jScalar_number {env : PyEnv} {s r : Str} (h : IsJsonNumber env.maxStrDigits s) (hr : Stops r) :
    jScalar env (s ++ r) = .ok r := by
  obtain ⟨g, n, f, e, hg, hn, hf, he, hl, rfl⟩ := h
  have key := jNumber_complete (env := env) hn hf he hl hr
  obtain ⟨c, t, rfl, hc⟩ := isWhole_head hn
  have ne : ∀ x : Char, digit x = false → x ≠ c := by rintro x hx rfl; rw [hx] at hc; cases hc
  have e0 : g ++ (c :: t ++ (f ++ e)) ++ r = g ++ (c :: (t ++ (f ++ (e ++ r)))) := by simp
  rw [e0]
  rcases hg with rfl | rfl
  · have : jScalar env (c :: (t ++ (f ++ (e ++ r)))) = jNumber env (c :: (t ++ (f ++ (e ++ r)))) := by
      simp [jScalar, jLit, ne 'n' (by decide), ne 't' (by decide), ne 'f' (by decide), ne 'N' (by decide),
        ne 'I' (by decide), ne '-' (by decide)]
    rw [List.nil_append, this]
    exact key
  · have hI := ne 'I' (by decide)
    have : jScalar env ('-' :: (c :: (t ++ (f ++ (e ++ r))))) = jNumber env (c :: (t ++ (f ++ (e ++ r)))) := by
      simp [jScalar, jLit, hI]
    rw [List.cons_append, List.nil_append, this]
    exact key

/-! ## Values -/

theorem elements_space {W : List Str} {lim d : Nat} {a s : Str} (ha : IsJsonSpace a) (h : IsJson W lim .elements d s) :
    IsJson W lim .elements d (a ++ s) := by
  cases h with
  | element h1 h2 h3 => rw [← List.append_assoc]; exact .element (IsJsonSpace.append ha h1) h2 h3
  | elements h1 h2 h3 h4 => rw [← List.append_assoc]; exact .elements (IsJsonSpace.append ha h1) h2 h3 h4

theorem members_space {W : List Str} {lim d : Nat} {a s : Str} (ha : IsJsonSpace a) (h : IsJson W lim .members d s) :
    IsJson W lim .members d (a ++ s) := by
  cases h with
  | member h1 h2 h3 h4 h5 h6 => rw [← List.append_assoc]; exact .member (IsJsonSpace.append ha h1) h2 h3 h4 h5 h6
  | members h1 h2 h3 h4 h5 h6 h7 =>
    rw [← List.append_assoc]; exact .members (IsJsonSpace.append ha h1) h2 h3 h4 h5 h6 h7

theorem noSpace : IsJsonSpace [] := by simp [IsJsonSpace]

theorem jParse_sound (env : PyEnv) : ∀ n,
    (∀ d s r, jValue env n d s = .ok r →
      ∃ v, IsJson pythonWords env.maxStrDigits .value d v ∧ s = v ++ r) ∧
    (∀ d s r, jMembers env n d s = .ok r →
      ∃ t, IsJson pythonWords env.maxStrDigits .members d ('"' :: t) ∧ s = t ++ '}' :: r) ∧
    (∀ d s r, jElements env n d s = .ok r →
      ∃ t, IsJson pythonWords env.maxStrDigits .elements d t ∧ s = t ++ ']' :: r) := by
  intro n
  induction n with
  | zero => simp [jValue, jMembers, jElements]
  | succ n ih =>
    obtain ⟨ih1, ih2, ih3⟩ := ih
    refine ⟨fun d s r h => ?_, fun d s r h => ?_, fun d s r h => ?_⟩
    · cases s with
      | nil => simp [jValue] at h
      | cons c rest =>
        obtain ⟨a, ha, hrest⟩ := jWs_split rest
        simp only [jValue] at h
        split at h
        · rename_i hc
          obtain ⟨cs, hcs, hs⟩ := jString_sound _ _ _ h
          exact ⟨'"' :: (cs.flatten ++ ['"']), .string ⟨cs, hcs, rfl⟩, by rw [hs, hc]; simp⟩
        split at h
        · rename_i hc
          cases d with
          | zero => simp at h
          | succ d =>
            simp only [] at h
            split at h
            · cases h
            · rename_i x r' hx
              rw [hx] at hrest
              split at h
              · rename_i hx'
                simp only [Except.ok.injEq] at h
                exact ⟨'{' :: (a ++ ['}']), .emptyObject ha, by rw [hrest, hc, hx', h]; simp⟩
              · split at h
                · rename_i hx'
                  obtain ⟨t, ht, hs⟩ := ih2 _ _ _ h
                  exact ⟨'{' :: ((a ++ ('"' :: t)) ++ ['}']), .object (members_space ha ht), by
                    rw [hrest, hc, hx', hs]; simp⟩
                · cases h
        split at h
        · rename_i hc
          cases d with
          | zero => simp at h
          | succ d =>
            simp only [] at h
            split at h
            · cases h
            · rename_i x r' hx
              rw [hx] at hrest
              split at h
              · rename_i hx'
                simp only [Except.ok.injEq] at h
                exact ⟨'[' :: (a ++ [']']), .emptyArray ha, by rw [hrest, hc, hx', h]; simp⟩
              · obtain ⟨t, ht, hs⟩ := ih3 _ _ _ h
                exact ⟨'[' :: ((a ++ t) ++ [']']), .array (elements_space ha ht), by rw [hrest, hc, hs]; simp⟩
        · exact jScalar_sound h
    · simp only [jMembers] at h
      split at h
      · cases h
      · rename_i r1 h1
        obtain ⟨cs, hcs, hs⟩ := jString_sound _ _ _ h1
        obtain ⟨b, hb, hr1⟩ := jWs_split r1
        have hk : IsJsonString ('"' :: (cs.flatten ++ ['"'])) := ⟨cs, hcs, rfl⟩
        split at h
        · cases h
        · rename_i x r2 hx
          rw [hx] at hr1
          split at h
          · rename_i hx'
            obtain ⟨c, hc, hr2⟩ := jWs_split r2
            split at h
            · cases h
            · rename_i r3 h3
              obtain ⟨v, hv, hr2'⟩ := ih1 _ _ _ h3
              obtain ⟨e, he, hr3⟩ := jWs_split r3
              split at h
              · cases h
              · rename_i y r4 hy
                rw [hy] at hr3
                split at h
                · rename_i hy'
                  simp only [Except.ok.injEq] at h
                  refine ⟨cs.flatten ++ ('"' :: (b ++ ':' :: (c ++ (v ++ e)))), ?_, ?_⟩
                  · have := IsJson.member (words := pythonWords) (lim := env.maxStrDigits) noSpace hk hb hc hv he
                    simpa using this
                  · rw [hs, hr1, hx', hr2, hr2', hr3, hy', h]; simp
                · split at h
                  · rename_i hy'
                    obtain ⟨a, ha, hr4⟩ := jWs_split r4
                    split at h
                    · cases h
                    · rename_i z r5 hz
                      rw [hz] at hr4
                      split at h
                      · rename_i hz'
                        obtain ⟨t, ht, hr5⟩ := ih2 _ _ _ h
                        refine ⟨cs.flatten ++ ('"' :: (b ++ ':' :: (c ++ (v ++ (e ++ ',' :: (a ++ '"' :: t)))))), ?_, ?_⟩
                        · have := IsJson.members (words := pythonWords) (lim := env.maxStrDigits) noSpace hk hb hc hv he
                            (members_space ha ht)
                          simpa using this
                        · rw [hs, hr1, hx', hr2, hr2', hr3, hy', hr4, hz', hr5]; simp
                      · cases h
                  · cases h
          · cases h
    · simp only [jElements] at h
      split at h
      · cases h
      · rename_i r1 h1
        obtain ⟨v, hv, hs⟩ := ih1 _ _ _ h1
        obtain ⟨b, hb, hr1⟩ := jWs_split r1
        split at h
        · cases h
        · rename_i x r2 hx
          rw [hx] at hr1
          split at h
          · rename_i hx'
            simp only [Except.ok.injEq] at h
            refine ⟨v ++ b, ?_, by rw [hs, hr1, hx', h]; simp⟩
            simpa using IsJson.element (words := pythonWords) (lim := env.maxStrDigits) noSpace hv hb
          · split at h
            · rename_i hx'
              obtain ⟨a, ha, hr2⟩ := jWs_split r2
              obtain ⟨t, ht, hr2'⟩ := ih3 _ _ _ h
              refine ⟨v ++ (b ++ ',' :: (a ++ t)), ?_, by rw [hs, hr1, hx', hr2, hr2']; simp⟩
              simpa using IsJson.elements (words := pythonWords) (lim := env.maxStrDigits) noSpace hv hb
                (elements_space ha ht)
            · cases h

/-- What may follow a value. -/
def JFollow (r : Str) : Prop :=
  ∀ c, r.head? = some c → c = ' ' ∨ c = '\t' ∨ c = '\n' ∨ c = '\r' ∨ c = ',' ∨ c = ']' ∨ c = '}'

theorem JFollow.stops {r : Str} (h : JFollow r) : Stops r := by
  intro c hc
  rcases h c hc with rfl | rfl | rfl | rfl | rfl | rfl | rfl <;> decide

theorem follow_space {a r : Str} (ha : IsJsonSpace a) (hr : JFollow r) : JFollow (a ++ r) := by
  cases a with
  | nil => exact hr
  | cons x a =>
    intro c hc
    simp only [List.cons_append, List.head?_cons, Option.some.injEq] at hc
    subst hc
    rcases ha x (by simp) with h | h | h | h <;> simp [h]

theorem follow_cons {c : Char} (h : c = ',' ∨ c = ']' ∨ c = '}') (r : Str) : JFollow (c :: r) := by
  intro x hx
  simp only [List.head?_cons, Option.some.injEq] at hx
  subst hx
  rcases h with h | h | h <;> simp [h]

/-- The first character of a value is not white space, and no comma or closing bracket. -/
theorem value_head {W : List Str} {lim d : Nat} {v : Str} (hW : W ⊆ pythonWords) (h : IsJson W lim .value d v) :
    ∃ c t, v = c :: t ∧ ¬ (c = ' ' ∨ c = '\t' ∨ c = '\n' ∨ c = '\r') ∧ c ≠ ']' := by
  have digs : ∀ c, digit c = true → ¬ (c = ' ' ∨ c = '\t' ∨ c = '\n' ∨ c = '\r') ∧ c ≠ ']' := by
    intro c hc
    refine ⟨?_, ?_⟩
    · rintro (rfl | rfl | rfl | rfl) <;> revert hc <;> decide
    · rintro rfl; revert hc; decide
  cases h with
  | word hw =>
    have := hW hw
    simp only [pythonWords, jsonWords, List.cons_append, List.nil_append, List.mem_cons, List.not_mem_nil, or_false] at this
    rcases this with rfl | rfl | rfl | rfl | rfl | rfl <;> exact ⟨_, _, rfl, by decide, by decide⟩
  | number hn =>
    obtain ⟨g, n, f, e, hg, hn, -, -, -, rfl⟩ := hn
    obtain ⟨c, t, rfl, hc⟩ := isWhole_head hn
    rcases hg with rfl | rfl
    · exact ⟨c, _, rfl, digs c hc⟩
    · exact ⟨'-', _, rfl, by decide, by decide⟩
  | string hs =>
    obtain ⟨cs, -, rfl⟩ := hs
    exact ⟨_, _, rfl, by decide, by decide⟩
  | emptyArray => exact ⟨_, _, rfl, by decide, by decide⟩
  | array => exact ⟨_, _, rfl, by decide, by decide⟩
  | emptyObject => exact ⟨_, _, rfl, by decide, by decide⟩
  | object => exact ⟨_, _, rfl, by decide, by decide⟩

theorem jWs_value {W : List Str} {lim d : Nat} {v : Str} (hW : W ⊆ pythonWords) (h : IsJson W lim .value d v) (r : Str) :
    jWs (v ++ r) = v ++ r := by
  obtain ⟨c, t, rfl, hc, -⟩ := value_head hW h
  rw [List.cons_append, jWs, if_neg hc]

theorem jValue_scalar {env : PyEnv} {n d : Nat} {c : Char} {s : Str} (h1 : c ≠ '"') (h2 : c ≠ '{') (h3 : c ≠ '[') :
    jValue env (n + 1) d (c :: s) = jScalar env (c :: s) := by
  simp only [jValue]
  rw [if_neg h1, if_neg h2, if_neg h3]

theorem jParse_complete (env : PyEnv) {W : List Str} (hW : W ⊆ pythonWords) {k : JKind} {d : Nat} {s : Str}
    (h : IsJson W env.maxStrDigits k d s) :
    match k with
    | .value => ∀ n r, 2 * s.length + 1 ≤ n → JFollow r → jValue env n d (s ++ r) = .ok r
    | .elements => ∀ n r, 2 * s.length + 2 ≤ n → jElements env n d (jWs (s ++ ']' :: r)) = .ok r
    | .members => ∀ n r, 2 * s.length + 2 ≤ n →
        ∃ t, jWs (s ++ '}' :: r) = '"' :: t ∧ jMembers env n d t = .ok r := by
  induction h with
  | @word d s hw =>
    intro n r hn _
    obtain ⟨m, rfl⟩ : ∃ m, n = m + 1 := ⟨n - 1, by omega⟩
    have hs := jScalar_word (env := env) (r := r) (hW hw)
    have : ∃ c t, s = c :: t ∧ c ≠ '"' ∧ c ≠ '{' ∧ c ≠ '[' := by
      have := hW hw
      simp only [pythonWords, jsonWords, List.cons_append, List.nil_append, List.mem_cons, List.not_mem_nil,
        or_false] at this
      rcases this with rfl | rfl | rfl | rfl | rfl | rfl <;> exact ⟨_, _, rfl, by decide, by decide, by decide⟩
    obtain ⟨c, t, rfl, h1, h2, h3⟩ := this
    rw [List.cons_append, jValue_scalar h1 h2 h3]
    exact hs
  | @number d s hn' =>
    intro n r hn hr
    obtain ⟨m, rfl⟩ : ∃ m, n = m + 1 := ⟨n - 1, by omega⟩
    have hs := jScalar_number (env := env) hn' hr.stops
    have : ∃ c t, s = c :: t ∧ c ≠ '"' ∧ c ≠ '{' ∧ c ≠ '[' := by
      obtain ⟨g, n, f, e, hg, hw, -, -, -, rfl⟩ := hn'
      obtain ⟨c, t, rfl, hc⟩ := isWhole_head hw
      rcases hg with rfl | rfl
      · refine ⟨c, _, rfl, ?_, ?_, ?_⟩ <;> (rintro rfl; revert hc; decide)
      · exact ⟨'-', _, rfl, by decide, by decide, by decide⟩
    obtain ⟨c, t, rfl, h1, h2, h3⟩ := this
    rw [List.cons_append, jValue_scalar h1 h2 h3]
    exact hs
  | @string d s hs =>
    intro n r hn hr
    obtain ⟨m, rfl⟩ : ∃ m, n = m + 1 := ⟨n - 1, by omega⟩
    obtain ⟨cs, hcs, rfl⟩ := hs
    simp only [List.cons_append, List.append_assoc, List.nil_append, jValue, if_true]
    exact jString_complete hcs r
  | @emptyArray d a ha =>
    intro n r hn hr
    obtain ⟨m, rfl⟩ : ∃ m, n = m + 1 := ⟨n - 1, by omega⟩
    simp only [List.cons_append, List.append_assoc, List.nil_append, jValue]
    rw [jWs_skip ha]
    simp [jWs]
  | @array d s hs ih =>
    intro n r hn hr
    obtain ⟨m, rfl⟩ : ∃ m, n = m + 1 := ⟨n - 1, by omega⟩
    simp only [List.cons_append, List.append_assoc, List.nil_append, List.length_cons, List.length_append] at hn ⊢
    have hi := ih m r (by simp at hn ⊢; omega)
    have hh : ∃ c t, jWs (s ++ ']' :: r) = c :: t ∧ c ≠ ']' := by
      cases hs with
      | element h1 h2 h3 =>
        rw [List.append_assoc, jWs_skip h1, List.append_assoc, jWs_value hW h2]
        obtain ⟨c, t, rfl, -, hc⟩ := value_head hW h2
        exact ⟨c, _, rfl, hc⟩
      | elements h1 h2 h3 h4 =>
        rw [List.append_assoc, jWs_skip h1, List.append_assoc, jWs_value hW h2]
        obtain ⟨c, t, rfl, -, hc⟩ := value_head hW h2
        exact ⟨c, _, rfl, hc⟩
    obtain ⟨c, t, hct, hc⟩ := hh
    simp only [jValue]
    rw [if_neg (by decide), if_neg (by decide), if_pos trivial, hct]
    simp only []
    rw [if_neg hc, ← hct]
    exact hi
  | @emptyObject d a ha =>
    intro n r hn hr
    obtain ⟨m, rfl⟩ : ∃ m, n = m + 1 := ⟨n - 1, by omega⟩
    simp only [List.cons_append, List.append_assoc, List.nil_append, jValue]
    rw [jWs_skip ha]
    simp [jWs]
  | @object d s hs ih =>
    intro n r hn hr
    obtain ⟨m, rfl⟩ : ∃ m, n = m + 1 := ⟨n - 1, by omega⟩
    simp only [List.cons_append, List.append_assoc, List.nil_append, List.length_cons, List.length_append] at hn ⊢
    obtain ⟨t, ht, hi⟩ := ih m r (by simp at hn ⊢; omega)
    simp only [jValue]
    rw [if_neg (by decide), if_pos trivial, ht]
    simp only []
    rw [if_neg (by decide), if_pos trivial]
    exact hi
  | @element d a v b ha hv hb ih =>
    intro n r hn
    obtain ⟨m, rfl⟩ : ∃ m, n = m + 1 := ⟨n - 1, by omega⟩
    simp only [List.append_assoc, List.length_append] at hn ⊢
    rw [jWs_skip ha, jWs_value hW hv]
    simp only [jElements]
    rw [ih m (b ++ ']' :: r) (by omega) (follow_space hb (follow_cons (by simp) _))]
    simp only []
    rw [jWs_skip hb]
    simp [jWs]
  | @elements d a v b t ha hv hb ht ih iht =>
    intro n r hn
    obtain ⟨m, rfl⟩ : ∃ m, n = m + 1 := ⟨n - 1, by omega⟩
    simp only [List.append_assoc, List.length_append, List.cons_append, List.length_cons] at hn ⊢
    rw [jWs_skip ha, jWs_value hW hv]
    simp only [jElements]
    rw [ih m (b ++ ',' :: (t ++ ']' :: r)) (by omega) (follow_space hb (follow_cons (by simp) _))]
    simp only []
    rw [jWs_skip hb]
    have : jWs (',' :: (t ++ ']' :: r)) = ',' :: (t ++ ']' :: r) := by simp [jWs]
    rw [this]
    simp only []
    rw [if_neg (by decide), if_pos trivial]
    exact iht m r (by omega)
  | @member d a k b c v e ha hk hb hc hv he ih =>
    intro n r hn
    obtain ⟨m, rfl⟩ : ∃ m, n = m + 1 := ⟨n - 1, by omega⟩
    obtain ⟨cs, hcs, rfl⟩ := hk
    simp only [List.append_assoc, List.length_append, List.cons_append, List.length_cons, List.nil_append] at hn ⊢
    rw [jWs_skip ha]
    refine ⟨_, by rw [jWs, if_neg (by decide)], ?_⟩
    simp only [jMembers]
    rw [jString_complete hcs]
    simp only []
    rw [jWs_skip hb, jWs, if_neg (by decide)]
    simp only [if_true]
    rw [jWs_skip hc, jWs_value hW hv, ih m (e ++ '}' :: r) (by omega) (follow_space he (follow_cons (by simp) _))]
    simp only []
    rw [jWs_skip he]
    simp [jWs]
  | @members d a k b c v e t ha hk hb hc hv he ht ih iht =>
    intro n r hn
    obtain ⟨m, rfl⟩ : ∃ m, n = m + 1 := ⟨n - 1, by omega⟩
    obtain ⟨cs, hcs, rfl⟩ := hk
    simp only [List.append_assoc, List.length_append, List.cons_append, List.length_cons, List.nil_append] at hn ⊢
    obtain ⟨u, hu, hi⟩ := iht m r (by omega)
    rw [jWs_skip ha]
    refine ⟨_, by rw [jWs, if_neg (by decide)], ?_⟩
    simp only [jMembers]
    rw [jString_complete hcs]
    simp only []
    rw [jWs_skip hb, jWs, if_neg (by decide)]
    simp only [if_true]
    rw [jWs_skip hc, jWs_value hW hv, ih m (e ++ ',' :: (t ++ '}' :: r)) (by omega)
      (follow_space he (follow_cons (by simp) _))]
    simp only []
    rw [jWs_skip he]
    have : jWs (',' :: (t ++ '}' :: r)) = ',' :: (t ++ '}' :: r) := by simp [jWs]
    rw [this]
    simp only []
    rw [if_neg (by decide), if_pos trivial, hu]
    simp only [if_true]
    exact hi

theorem jsonLoads_iff (env : PyEnv) (s : Str) : jsonLoads env s = .ok () ↔
    ∃ a v b, IsJsonSpace a ∧ IsJson pythonWords env.maxStrDigits .value env.jsonDepth v ∧ IsJsonSpace b ∧
      s = a ++ (v ++ b) := by
  constructor
  · intro h
    unfold jsonLoads at h
    obtain ⟨a, ha, hs⟩ := jWs_split s
    split at h
    · cases h
    · rename_i r hr
      split at h
      · rename_i hw
        obtain ⟨v, hv, hv'⟩ := (jParse_sound env _).1 _ _ _ hr
        obtain ⟨b, hb, hb'⟩ := jWs_split r
        rw [hw, List.append_nil] at hb'
        exact ⟨a, v, b, ha, hv, hb, by rw [hs, hv', hb']⟩
      · cases h
  · rintro ⟨a, v, b, ha, hv, hb, rfl⟩
    unfold jsonLoads
    rw [jWs_skip ha, jWs_value (fun _ h => h) hv]
    have := jParse_complete env (fun _ h => h) hv (2 * (a ++ (v ++ b)).length + 1) b (by simp; omega)
      (by have := follow_space hb (r := []) (by intro c hc; cases hc); rwa [List.append_nil] at this)
    rw [this]
    simp only [jWs_all hb, if_true]

end Clever
