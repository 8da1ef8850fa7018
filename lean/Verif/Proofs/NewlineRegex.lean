import Verif.Proofs.Newlines
import Verif.Proofs.RegexChars
import Verif.Proofs.Potential

/-!
# URLs and the newline convention
-/

namespace Clever

open Spec

/-- The expression looks at what follows only, and its classes reject newlines. -/
def Re.Linewise : Re → Prop
  | .eps => True
  | .cls p => p '\n' = false ∧ p '\r' = false
  | .seq a b => a.Linewise ∧ b.Linewise
  | .alt a b => a.Linewise ∧ b.Linewise
  | .star a => a.Linewise
  | .ahead a => a.Linewise
  | .nahead a => a.Linewise
  | _ => False

/-- The same positions in a text and in the converted text. -/
inductive Runs2 (nl : Str) : List MState → List MState → Prop
  | nil : Runs2 nl [] []
  | cons {s s' : MState} {l l' : List MState} : s'.rest = recode nl s.rest → Runs2 nl l l' →
      Runs2 nl (s :: l) (s' :: l')

namespace Runs2
variable {nl : Str}

theorem append {l l' m m' : List MState} (h : Runs2 nl l l') (h' : Runs2 nl m m') :
    Runs2 nl (l ++ m) (l' ++ m') := by
  induction h with
  | nil => exact h'
  | cons hs _ ih => exact .cons hs ih

theorem one {s s' : MState} (h : s'.rest = recode nl s.rest) : Runs2 nl [s] [s'] := .cons h .nil

theorem flatMap {l l' : List MState} (h : Runs2 nl l l') {f g : MState → List MState}
    (hf : ∀ s s', s ∈ l → s'.rest = recode nl s.rest → Runs2 nl (f s) (g s')) :
    Runs2 nl (l.flatMap f) (l'.flatMap g) := by
  induction h with
  | nil => exact .nil
  | cons hs _ ih =>
    simp only [List.flatMap_cons]
    exact (hf _ _ (by simp) hs).append (ih fun s s' hs => hf s s' (by simp [hs]))

theorem filter {l l' : List MState} (h : Runs2 nl l l') {p q : MState → Bool}
    (hf : ∀ s s', s ∈ l → s'.rest = recode nl s.rest → p s = q s') :
    Runs2 nl (l.filter p) (l'.filter q) := by
  induction h with
  | nil => exact .nil
  | @cons s s' l l' hs _ ih =>
    have ih := ih fun s s' hs => hf s s' (by simp [hs])
    have e := hf s s' (by simp) hs
    by_cases hp : p s = true
    · rw [List.filter_cons_of_pos hp, List.filter_cons_of_pos (by rw [← e]; exact hp)]
      exact .cons hs ih
    · rw [List.filter_cons_of_neg hp, List.filter_cons_of_neg (by rw [← e]; exact hp)]
      exact ih

theorem isEmpty {l l' : List MState} (h : Runs2 nl l l') : l'.isEmpty = l.isEmpty := by
  cases h <;> rfl

end Runs2

theorem run_rest_suffix {r : Re} {s t : MState} (h : t ∈ r.run s) : ∃ w, s.rest = w ++ t.rest := by
  obtain ⟨w, h1, -⟩ := run_mem_split r s t h
  exact ⟨w, h1⟩

theorem recode_lt {nl : Str} (h : IsNewline nl) {x y w : Str} (hw : x = w ++ y) :
    (recode nl y).length < (recode nl x).length ↔ y.length < x.length := by
  subst hw
  rw [recode_append]
  have := le_recode_length h w
  have e : recode nl w = [] ↔ w = [] := recode_eq_nil h
  cases w with
  | nil => simp [recode]
  | cons c w => simp at this ⊢; omega

theorem starRun_linewise {nl : Str} (hn : IsNewline nl) {a : Re}
    (ha : ∀ s s' : MState, s'.rest = recode nl s.rest → Runs2 nl (a.run s) (a.run s')) :
    ∀ (n n' : Nat) (s s' : MState), s'.rest = recode nl s.rest → s.rest.length ≤ n → s'.rest.length ≤ n' →
      Runs2 nl (starRun a.run n s) (starRun a.run n' s')
  | 0, 0, s, s', hs, _, _ => .one hs
  | 0, n' + 1, s, s', hs, h, _ => by
    have h0 : s.rest = [] := by cases hr : s.rest <;> simp_all
    have h1 : s'.rest = [] := by rw [hs, h0]; rfl
    have : (a.run s').filter (fun t => t.rest.length < s'.rest.length) = [] := by
      rw [List.filter_eq_nil_iff]
      intro t _
      simp [h1]
    rw [starRun, starRun, this]
    exact .one hs
  | n + 1, 0, s, s', hs, _, h => by
    have h1 : s'.rest = [] := by cases hr : s'.rest <;> simp_all
    have h0 : s.rest = [] := by rw [hs, recode_eq_nil hn] at h1; exact h1
    have : (a.run s).filter (fun t => t.rest.length < s.rest.length) = [] := by
      rw [List.filter_eq_nil_iff]
      intro t _
      simp [h0]
    rw [starRun, starRun, this]
    exact .one hs
  | n + 1, n' + 1, s, s', hs, h, h' => by
    rw [starRun, starRun]
    refine Runs2.append ?_ (.one hs)
    refine Runs2.flatMap ?_ ?_
    · refine (ha s s' hs).filter fun t t' ht ht' => ?_
      obtain ⟨w, hw⟩ := run_rest_suffix ht
      have := recode_lt hn hw
      rw [ht', hs]
      simp only [this]
    · intro t t' ht ht'
      have hm := (List.mem_filter.1 ht)
      have hlt : t.rest.length < s.rest.length := by simpa using hm.2
      obtain ⟨w, hw⟩ := run_rest_suffix hm.1
      have hlt' : t'.rest.length < s'.rest.length := by
        rw [ht', hs]; exact (recode_lt hn hw).2 hlt
      exact starRun_linewise hn ha n n' t t' ht' (by omega) (by omega)

theorem Re.Linewise.run {nl : Str} (hn : IsNewline nl) : ∀ {r : Re}, r.Linewise → ∀ s s' : MState,
    s'.rest = recode nl s.rest → Runs2 nl (r.run s) (r.run s') := by
  intro r
  induction r with
  | eps => intro _ s s' h; exact .one h
  | cls p =>
    intro hp s s' h
    simp only [Re.run]
    cases hr : s.rest with
    | nil =>
      rw [hr] at h
      rw [h]
      exact .nil
    | cons c rest =>
      rw [hr, recode] at h
      by_cases hc : c = '\n'
      · subst hc
        rw [if_pos rfl] at h
        rcases hn with rfl | rfl <;> (rw [h]; simp [hp.1, hp.2]; exact .nil)
      · rw [if_neg hc] at h
        rw [h]
        simp only [List.singleton_append]
        split
        · exact .one rfl
        · exact .nil
  | seq a b iha ihb =>
    intro hp s s' h
    exact (iha hp.1 s s' h).flatMap fun t t' _ ht => ihb hp.2 t t' ht
  | alt a b iha ihb =>
    intro hp s s' h
    exact (iha hp.1 s s' h).append (ihb hp.2 s s' h)
  | star a ih =>
    intro hp s s' h
    exact starRun_linewise hn (ih hp) _ _ s s' h (Nat.le_refl _) (Nat.le_refl _)
  | ahead a ih =>
    intro hp s s' h
    simp only [Re.run]
    rw [(ih hp s s' h).isEmpty]
    split
    · exact .nil
    · exact .one h
  | nahead a ih =>
    intro hp s s' h
    simp only [Re.run]
    rw [(ih hp s s' h).isEmpty]
    split
    · exact .one h
    · exact .nil
  | grp k a ih => intro hp; exact hp.elim
  | bref k => intro hp; exact hp.elim
  | behind p => intro hp; exact hp.elim
  | cond k a b _ _ => intro hp; exact hp.elim
  | bol => intro hp; exact hp.elim
  | eol => intro hp; exact hp.elim

theorem Re.Linewise.avoids {c : Char} (hc : isNL c = true) : ∀ {r : Re}, r.Linewise → r.Avoids c := by
  have hc' : c = '\n' ∨ c = '\r' := by
    rcases (by simpa [isNL] using hc : c = '\r' ∨ c = '\n') with h | h
    · exact .inr h
    · exact .inl h
  intro r
  induction r with
  | cls p => intro h; rcases hc' with rfl | rfl; exacts [h.1, h.2]
  | seq a b iha ihb => intro h; exact ⟨iha h.1, ihb h.2⟩
  | alt a b iha ihb => intro h; exact ⟨iha h.1, ihb h.2⟩
  | star a ih => intro h; exact ih h
  | grp k a ih => intro h; exact h.elim
  | cond k a b _ _ => intro h; exact h.elim
  | _ => intro _; trivial

/-- Nothing is consumed at a line break. -/
theorem Re.Linewise.run_nl {r : Re} (h : r.Linewise) {c : Char} (hc : isNL c = true) {pre rest : Str} {t : MState}
    (ht : t ∈ r.run ⟨pre, c :: rest, []⟩) : t.rest = c :: rest := by
  obtain ⟨⟨w, h1, h2⟩, -⟩ := (h.avoids hc).run _ t (by simp) ht
  cases w with
  | nil => exact h1.symm
  | cons x w =>
    simp only [List.cons_append, List.cons.injEq] at h1
    exact absurd (by simp [h1.1]) h2

theorem subAux_nl {r : Re} (h : r.Linewise) (rep : Str) {c : Char} (hc : isNL c = true) (pre rest : Str) :
    r.subAux rep 0 pre (c :: rest) = c :: r.subAux rep 0 (c :: pre) rest := by
  rw [Re.subAux]
  split
  · rfl
  · rename_i t ht
    have := h.run_nl hc (List.mem_of_head? ht)
    rw [this, if_neg (by simp)]

theorem Re.Linewise.subAux {nl : Str} (hn : IsNewline nl) {r : Re} (h : r.Linewise) (rep : Str)
    (hrep : '\n' ∉ rep) : ∀ (t : Str) (k : Nat) (pre pre' : Str), '\n' ∉ t.take k →
    r.subAux rep k pre' (recode nl t) = recode nl (r.subAux rep k pre t)
  | [], k, pre, pre', _ => by cases k <;> rfl
  | c :: t, k + 1, pre, pre', hk => by
    simp only [List.take_succ_cons, List.mem_cons, not_or] at hk
    rw [recode, if_neg (Ne.symm hk.1)]
    simp only [List.singleton_append]
    rw [Re.subAux, Re.subAux]
    exact Re.Linewise.subAux hn h rep hrep t k _ _ hk.2
  | c :: t, 0, pre, pre', _ => by
    by_cases hc : c = '\n'
    · subst hc
      rw [subAux_nl h rep (by decide), recode, recode, if_pos rfl]
      rcases hn with rfl | rfl
      · show r.subAux rep 0 pre' ('\r' :: recode _ t) = _
        rw [subAux_nl h rep (by decide), Re.Linewise.subAux (.inl rfl) h rep hrep t 0 ('\n' :: pre) _ (by simp)]
        rfl
      · show r.subAux rep 0 pre' ('\r' :: '\n' :: recode _ t) = _
        rw [subAux_nl h rep (by decide), subAux_nl h rep (by decide),
          Re.Linewise.subAux (.inr rfl) h rep hrep t 0 ('\n' :: pre) _ (by simp)]
        rfl
    · rw [recode, if_neg hc]
      simp only [List.singleton_append]
      have hrun := Re.Linewise.run hn h ⟨pre, c :: t, []⟩ ⟨pre', c :: recode nl t, []⟩
        (by simp [recode, hc])
      rw [Re.subAux, Re.subAux]
      have keep : c :: r.subAux rep 0 (c :: pre') (recode nl t) =
          recode nl (c :: r.subAux rep 0 (c :: pre) t) := by
        rw [Re.Linewise.subAux hn h rep hrep t 0 (c :: pre) _ (by simp), recode, if_neg hc]
        rfl
      cases hA : r.run ⟨pre, c :: t, []⟩ with
      | nil =>
        rw [hA] at hrun
        cases hB : r.run ⟨pre', c :: recode nl t, []⟩ with
        | nil => exact keep
        | cons b bs => rw [hB] at hrun; cases hrun
      | cons a as =>
        rw [hA] at hrun
        cases hB : r.run ⟨pre', c :: recode nl t, []⟩ with
        | nil => rw [hB] at hrun; cases hrun
        | cons b bs =>
          rw [hB] at hrun
          cases hrun with
          | cons hab _ =>
          simp only [List.head?_cons]
          obtain ⟨⟨w, h1, h2⟩, -⟩ := (h.avoids (c := '\n') (by decide)).run _ a (by simp)
            (by rw [hA]; simp : a ∈ r.run ⟨pre, c :: t, []⟩)
          simp only at h1
          cases w with
          | nil =>
            simp only [List.nil_append] at h1
            rw [hab, ← h1, if_neg (by simp [recode, hc]), if_neg (by simp)]
            exact keep
          | cons x w =>
            simp only [List.cons_append, List.cons.injEq] at h1
            obtain ⟨rfl, rfl⟩ := h1
            simp only [List.mem_cons, not_or] at h2
            have e : recode nl (w ++ a.rest) = w ++ b.rest := by
              rw [recode_append, recode_id h2.2, hab]
            rw [e, if_pos (by simp), if_pos (by simp)]
            have e1 : (w ++ b.rest).length - b.rest.length = w.length := by simp
            have e2 : (w ++ a.rest).length - a.rest.length = w.length := by simp
            rw [e1, e2, recode_append, recode_id hrep, ← e,
              Re.Linewise.subAux hn h rep hrep (w ++ a.rest) w.length (c :: pre) _ (by simpa using h2.2)]

theorem times_linewise {a : Re} (h : a.Linewise) : ∀ n, (a.times n).Linewise
  | 0 => trivial
  | 1 => h
  | n + 2 => ⟨h, times_linewise h (n + 1)⟩

theorem upto_linewise {a : Re} (h : a.Linewise) : ∀ n, (a.upto n).Linewise
  | 0 => trivial
  | n + 1 => ⟨⟨h, upto_linewise h n⟩, trivial⟩

theorem between_linewise {a : Re} (h : a.Linewise) (m n : Nat) : (a.between m n).Linewise :=
  ⟨times_linewise h m, upto_linewise h _⟩

theorem chr_linewise {c : Char} (h : isNL c = false) : (Re.chr c).Linewise := by
  have h1 : '\n' ≠ c := by rintro rfl; cases h
  have h2 : '\r' ≠ c := by rintro rfl; cases h
  simp [Re.chr, Re.Linewise, h1, h2]

theorem lit_linewise : ∀ {s : List Char}, (∀ c ∈ s, isNL c = false) → (Re.lit s).Linewise
  | [], _ => trivial
  | [_], h => chr_linewise (h _ (by simp))
  | _ :: _ :: _, h => ⟨chr_linewise (h _ (by simp)), lit_linewise fun c hc => h c (by simp [hc])⟩

theorem reUrl_linewise {env : PyEnv} (h : env.Ascii) : (reUrl env).Linewise := by
  have hd : (Re.cls env.decimal).Linewise := by
    constructor
    · rw [h.decimal _ (by decide)]; decide
    · rw [h.decimal _ (by decide)]; decide
  have hlow : (Re.cls (rng 'a' 'z')).Linewise := by constructor <;> decide
  have hw : ∀ p : Char → Bool, p '\n' = false → p '\r' = false →
      (Re.cls (fun c => env.letter c || env.number c || p c)).Linewise := by
    intro p h1 h2
    constructor
    · show (env.letter '\n' || env.number '\n' || p '\n') = false
      rw [h.letter _ (by decide), h.number _ (by decide), h1]; decide
    · show (env.letter '\r' || env.number '\r' || p '\r') = false
      rw [h.letter _ (by decide), h.number _ (by decide), h2]; decide
  have hport : (rePort env).Linewise := ⟨⟨chr_linewise (by decide), between_linewise hd 1 5⟩, trivial⟩
  have d13 := between_linewise hd 1 3
  have dot := chr_linewise (c := '.') (by decide)
  refine ⟨⟨⟨⟨⟨lit_linewise (by decide), chr_linewise (by decide), trivial⟩, lit_linewise (by decide)⟩,
    lit_linewise (by decide), chr_linewise (by decide)⟩, trivial⟩, ?_, ?_, ?_⟩
  · have hy := hw (fun c => decide (c = '-')) (by decide) (by decide)
    refine ⟨⟨⟨?_, ?_⟩, ⟨?_, ?_⟩, ?_⟩, ⟨lit_linewise (by decide), hport⟩, d13, dot, d13, dot, d13, dot, d13, hport⟩
    · exact ⟨⟨hy, hy⟩, dot⟩
    · exact ⟨⟨hy, hy⟩, dot⟩
    · exact ⟨times_linewise hlow 2, hlow⟩
    · exact lit_linewise (by decide)
    · exact ⟨⟨dot, between_linewise hlow 2 3⟩, trivial⟩
  · exact ⟨⟨chr_linewise (by decide), hw _ (by decide) (by decide)⟩, trivial⟩
  · exact ⟨⟨dot, hlow, hlow⟩, trivial⟩

theorem filterUrls_recode {env : PyEnv} (h : env.Ascii) {nl : Str} (hn : IsNewline nl) (t : Str) :
    filterUrls env (recode nl t) = recode nl (filterUrls env t) :=
  (reUrl_linewise h).subAux hn ['U'] (by decide) t 0 [] [] (by simp)

end Clever
