import Verif.Proofs.Backtrack

/-!
# Bounds for the patterns of clevercsv/_regexes.py: lemmas for C120
-/

namespace Clever

open Re

theorem Poly.search {r : Re} {c k w l : Nat} (h : Poly r c k w l) (s : Str) :
    (r.search s).1 ≤ (w + c) * (s.length + 1) ^ max l k := by
  have h1 := go_steps r ⟨[], s, []⟩ (fun t => if t.rest = [] then (1, some t) else (1, none))
  have h2 := sum_le_mul (r.run ⟨[], s, []⟩)
    (fun t => (if t.rest = [] then (1, some t) else (1, none) : Found).1) 1 fun t _ => by split <;> simp
  have h3 := le_trans (h.steps ⟨[], s, []⟩) (Nat.mul_le_mul_left _ (pow_le (le_max_left l k)))
  have h4 := le_trans (h.runs ⟨[], s, []⟩) (Nat.mul_le_mul_left _ (pow_le (le_max_right l k)))
  rw [Nat.add_mul]
  simp only [Re.search] at h1 h3 h4 ⊢
  omega

theorem Poly.searchAt {r : Re} {c k w l : Nat} (h : Poly r c k w l) (pre s : Str) :
    (r.searchAt pre s).1 ≤ (w + c) * (s.length + 1) ^ max l k := by
  have h1 := go_steps r ⟨pre, s, []⟩ (fun t => (1, some t))
  have h2 := sum_map_one (r.run ⟨pre, s, []⟩)
  have h3 := le_trans (h.steps ⟨pre, s, []⟩) (Nat.mul_le_mul_left _ (pow_le (le_max_left l k)))
  have h4 := le_trans (h.runs ⟨pre, s, []⟩) (Nat.mul_le_mul_left _ (pow_le (le_max_right l k)))
  rw [Nat.add_mul]
  simp only [Re.searchAt] at h1 h3 h4 ⊢
  omega

theorem Poly.subSteps {r : Re} {c k w l : Nat} (h : Poly r c k w l) (s : Str) : ∀ (i : Nat) (pre : Str),
    r.subSteps i pre s ≤ s.length * ((w + c) * (s.length + 1) ^ max l k) := by
  induction s with
  | nil => intro i pre; simp [Re.subSteps]
  | cons x s ih =>
    intro i pre
    have hstep : ∀ i pre, r.subSteps i pre s ≤ s.length * ((w + c) * ((x :: s).length + 1) ^ max l k) := fun i pre =>
      le_trans (ih i pre) (Nat.mul_le_mul_left _ (Nat.mul_le_mul_left _ (pow_mono (by simp))))
    have h1 := h.searchAt pre (x :: s)
    rw [show (x :: s).length * ((w + c) * ((x :: s).length + 1) ^ max l k) =
      s.length * ((w + c) * ((x :: s).length + 1) ^ max l k) + (w + c) * ((x :: s).length + 1) ^ max l k by
        rw [List.length_cons, Nat.add_mul, Nat.one_mul]]
    cases i with
    | succ i =>
      rw [Re.subSteps]
      have := hstep i (x :: pre)
      omega
    | zero =>
      rw [Re.subSteps]
      split
      · have := hstep 0 (x :: pre)
        omega
      · rename_i t ht
        split
        · have := hstep (s.length - t.rest.length) (x :: pre)
          omega
        · have := hstep 0 (x :: pre)
          omega

/-! ## Repetitions -/

theorem one_run {a : Re} {w l : Nat} (h : Poly a 1 0 w l) (s : MState) : (a.run s).length ≤ 1 := by
  simpa using h.runs s

/-- Repetition of an expression that matches in at most one way. -/
theorem Poly.starOne {a : Re} {w l : Nat} (h : Poly a 1 0 w l) : Poly (.star a) 2 1 (2 + 2 * w) (l + 1) := by
  have := h.star fun s => le_trans (List.length_filter_le _ _) (one_run h s)
  exact this.weaken (le_refl _) (le_refl _) (by omega) (by omega)

theorem Poly.starCls (p : Char → Bool) : Poly (.star (.cls p)) 2 1 4 1 := (Poly.cls p).starOne

theorem Poly.plusCls (p : Char → Bool) : Poly (plus (.cls p)) 2 1 6 1 :=
  ((Poly.cls p).seq (Poly.starCls p)).weaken (by decide) (by decide) (by decide) (by decide)

/-- Of the matches of `[p]*` at most one is followed by a character that is not in the class. -/
theorem starRun_cls_stop (p : Char → Bool) (n : Nat) (s : MState) (hn : s.rest.length ≤ n) :
    ((starRun (Re.cls p).run n s).filter fun t => t.rest.head?.any (!p ·)).length ≤ 1 := by
  induction n generalizing s with
  | zero => simp only [starRun]; exact le_trans (List.length_filter_le _ _) (by simp)
  | succ n ih =>
    rw [starRun, Re.run]
    cases hr : s.rest with
    | nil => simp [hr]
    | cons c rest =>
      simp only
      cases hp : p c with
      | false => simp [hr, hp]
      | true =>
        have := ih { s with pre := c :: s.pre, rest := rest } (by rw [hr] at hn; simp at hn ⊢; exact hn)
        simpa [hr, hp] using this

theorem star_cls_stop (p : Char → Bool) (s : MState) :
    (((Re.star (.cls p)).run s).filter fun t => t.rest.head?.any (!p ·)).length ≤ 1 :=
  starRun_cls_stop p _ s le_rfl

theorem filter_flatMap_one {α β : Type} {l : List α} {f : α → List β} {p : β → Bool} (hl : l.length ≤ 1)
    (hf : ∀ x ∈ l, ((f x).filter p).length ≤ 1) : ((l.flatMap f).filter p).length ≤ 1 := by
  match l, hl with
  | [], _ => simp
  | [x], _ => simpa using hf x (by simp)

theorem plus_cls_stop (p : Char → Bool) (s : MState) :
    (((plus (.cls p)).run s).filter fun t => t.rest.head?.any (!p ·)).length ≤ 1 := by
  rw [plus, Re.run]
  exact filter_flatMap_one (one_run (Poly.cls p) s) fun x _ => star_cls_stop p x

/-- `[p]+c` matches in at most one way if `c` is not in the class. -/
theorem Poly.plusThen {p : Char → Bool} {c : Char} (hc : p c = false) :
    Poly (.seq (Re.plus (.cls p)) (Re.chr c)) 1 0 9 1 := by
  have h := ((Poly.plusCls p).seq (Poly.chr c)).steps
  refine ⟨fun s => ?_, fun s => le_trans (h s) (Nat.mul_le_mul (by decide) (pow_le (by decide)))⟩
  rw [Re.run, List.length_flatMap, pow_zero, mul_one]
  refine le_trans ?_ (plus_cls_stop p s)
  generalize (Re.plus (.cls p)).run s = L
  induction L with
  | nil => simp
  | cons t L ih =>
    rw [List.map_cons, List.sum_cons]
    by_cases ht : (t.rest.head?.any (!p ·)) = true
    · rw [List.filter_cons_of_pos (by simpa using ht), List.length_cons]
      have := one_run (Poly.chr c) t
      omega
    · rw [List.filter_cons_of_neg (by simpa using ht)]
      have : ((Re.chr c).run t).length = 0 := by
        rw [Re.chr, Re.run]
        cases hr : t.rest with
        | nil => rfl
        | cons x rest =>
          simp only
          split
          · rename_i hx
            have hx' : x = c := by simpa using hx
            rw [hr, hx'] at ht
            simp [hc] at ht
          · rfl
      omega

/-- Repetition of `c[p]+` where `c` is not in the class. -/
theorem Poly.starAfter {p : Char → Bool} {c : Char} (hc : p c = false) :
    Poly (.star (.seq (Re.chr c) (Re.plus (.cls p)))) 3 2 35 3 := by
  have h := ((Poly.chr c).seq (Poly.plusCls p)).star fun s => by
    rw [Re.run]
    refine filter_flatMap_one (one_run (Poly.chr c) s) fun x _ => ?_
    refine le_trans ?_ (plus_cls_stop p x)
    rw [← List.countP_eq_length_filter, ← List.countP_eq_length_filter]
    refine List.countP_mono_left fun t _ ht => ?_
    rw [Re.run, Re.chr, Re.run] at ht
    cases hr : t.rest with
    | nil => simp [hr] at ht
    | cons y rest =>
      simp only [hr] at ht
      by_cases hy : y = c
      · subst hy; simp [hc]
      · simp [hy] at ht
  exact h.weaken (by decide) (by decide) (by decide) (by decide)

theorem Poly.lit (w : List Char) : Poly (Re.lit w) 1 0 (2 * w.length + 1) 0 := by
  induction w with
  | nil => exact Poly.eps
  | cons c w ih =>
    cases w with
    | nil => exact (Poly.chr c).weaken (by decide) (by decide) (by simp) (by decide)
    | cons d w =>
      refine ((Poly.chr c).seq ih).weaken (by decide) (by decide) ?_ (by decide)
      simp only [List.length_cons]
      omega

theorem Poly.times {a : Re} {w l : Nat} (h : Poly a 1 0 w l) : ∀ n, Poly (a.times n) 1 0 (n * (w + 1) + 1) l
  | 0 => Poly.eps.weaken (by decide) (by decide) (by omega) (by omega)
  | 1 => h.weaken (by decide) (by decide) (by omega) (by omega)
  | n + 2 => by
    refine (h.seq (Poly.times h (n + 1))).weaken (by decide) (by decide) ?_ (by simp)
    rw [show n + 2 = (n + 1) + 1 from rfl, Nat.add_mul (n + 1) 1]
    omega

theorem Poly.upto {a : Re} {w : Nat} (h : Poly a 1 0 w 0) : ∀ n, Poly (a.upto n) (n + 1) 0 (n * (w + 3) + 1) 0
  | 0 => Poly.eps.weaken (by decide) (by decide) (by omega) (by omega)
  | n + 1 => by
    refine ((h.seq (Poly.upto h n)).opt).weaken (by omega) (by simp) ?_ (by simp)
    rw [Nat.add_mul n 1]
    omega

theorem Poly.between {a : Re} {w : Nat} (h : Poly a 1 0 w 0) (m n : Nat) :
    Poly (a.between m n) (n - m + 1) 0 (m * (w + 1) + (n - m) * (w + 3) + 3) 0 :=
  ((h.times m).seq (h.upto (n - m))).weaken (by omega) (by simp) (by omega) (by simp)

theorem Poly.catNil : Poly (Re.cat []) 1 0 1 0 := Poly.eps
theorem Poly.catOne {a : Re} {c k w l : Nat} (h : Poly a c k w l) : Poly (Re.cat [a]) c k w l := h
theorem Poly.catCons {a b : Re} {rs : List Re} {c₁ k₁ w₁ l₁ c₂ k₂ w₂ l₂ : Nat} (ha : Poly a c₁ k₁ w₁ l₁)
    (hb : Poly (Re.cat (b :: rs)) c₂ k₂ w₂ l₂) :
    Poly (Re.cat (a :: b :: rs)) (c₁ * c₂) (k₁ + k₂) (1 + w₁ + c₁ * w₂) (max l₁ (k₁ + l₂)) := ha.seq hb
theorem Poly.anyOne {a : Re} {c k w l : Nat} (h : Poly a c k w l) : Poly (Re.any [a]) c k w l := h
theorem Poly.anyCons {a b : Re} {rs : List Re} {c₁ k₁ w₁ l₁ c₂ k₂ w₂ l₂ : Nat} (ha : Poly a c₁ k₁ w₁ l₁)
    (hb : Poly (Re.any (b :: rs)) c₂ k₂ w₂ l₂) :
    Poly (Re.any (a :: b :: rs)) (c₁ + c₂) (max k₁ k₂) (1 + w₁ + w₂) (max l₁ l₂) := ha.alt hb

variable {env : PyEnv}

theorem Poly.starSome {a b : Re} (h : a = b) {c k w l : Nat} (hb : Poly (.star b) c k w l) : Poly (.star a) c k w l := h ▸ hb

/-- `a+` from `a*`. -/
theorem Poly.plus {a : Re} {c₁ k₁ w₁ l₁ c₂ k₂ w₂ l₂ : Nat} (ha : Poly a c₁ k₁ w₁ l₁) (hb : Poly (.star a) c₂ k₂ w₂ l₂) :
    Poly a.plus (c₁ * c₂) (k₁ + k₂) (1 + w₁ + c₁ * w₂) (max l₁ (k₁ + l₂)) := ha.seq hb

theorem poly_exp : Poly (reExp env) 4 1 50 1 := 
  Poly.weaken (Poly.catCons (Poly.cls _) (Poly.catCons (Poly.cls _).opt (Poly.catOne (Poly.plusCls _)))) (by decide) (by decide) (by decide) (by decide)

theorem poly_noDot : Poly (reNoDot env) 5 1 60 1 := by
  refine Poly.weaken (k := 1) (l := 1) ((Poly.behind _).seq poly_exp).opt ?_ ?_ ?_ ?_ <;> decide

theorem poly_yesDot : Poly (.seq (.star (.cls env.decimal)) (opt (.seq (.star (.cls env.decimal)) (reExp env)))) 18 3 500 3 := by
  refine Poly.weaken ((Poly.starCls _).seq ((Poly.starCls _).seq poly_exp).opt) ?_ ?_ ?_ ?_ <;> decide

theorem poly_yesComma : Poly (.seq (Re.plus (.cls env.decimal)) (opt (.seq (Re.plus (.cls env.decimal)) (reExp env)))) 18 3 500 3 := by
  refine Poly.weaken ((Poly.plusCls _).seq ((Poly.plusCls _).seq poly_exp).opt) ?_ ?_ ?_ ?_ <;> decide

theorem poly_number1 : Poly (reNumber1 env) 1000 4 30000 4 := by
  refine Poly.weaken (Poly.catCons Poly.bol (Poly.catCons (Poly.cls _).ahead (Poly.catCons (Poly.cls _).opt
    (Poly.catCons ((Poly.chr _).alt ((Poly.cls _).seq (Poly.starCls _))).opt
    (Poly.catCons (Poly.alt
      (Poly.seq ((((Poly.behind _).seq (Poly.chr _)).alt ((Poly.chr _).seq (Poly.cls _).ahead)).grp 1).opt
        (Poly.cond 1 poly_yesDot poly_noDot))
      (Poly.seq ((Poly.chr _).grp 2).opt (Poly.cond 2 poly_yesComma poly_noDot))) (Poly.catOne Poly.eol)))))) ?_ ?_ ?_ ?_ <;> decide

theorem poly_thousands (a b : Char) : Poly (reThousands env a b) 100 2 1000 2 := by
  have h : Poly (Re.seq (Re.chr a) ((Re.cls env.decimal).times 3)) 1 0 10 0 :=
    ((Poly.chr a).seq ((Poly.cls _).times 3)).weaken (by decide) (by decide) (by decide) (by decide)
  refine Poly.weaken (Poly.catCons (Poly.cls _).opt (Poly.catCons ((Poly.cls _).alt ((Poly.cls _).seq ((Poly.cls _).upto 2)))
    (Poly.catCons (h.plus h.starOne) (Poly.catCons (Poly.chr _) (Poly.catOne (Poly.starCls _)))))) ?_ ?_ ?_ ?_ <;> decide

theorem poly_email : Poly reEmail 8 3 92 3 := 
  Poly.weaken (Poly.catCons Poly.bol (Poly.catCons (Poly.plusCls _) (Poly.catCons (Poly.chr _) (Poly.catCons (Poly.plusCls _)
    (Poly.catCons (Poly.chr _) (Poly.catCons (Poly.plusCls _) (Poly.catOne Poly.eol))))))) (by decide) (by decide) (by decide) (by decide)

theorem poly_digits : Poly ((Re.cls env.decimal).between 1 3) 3 0 20 0 :=
  ((Poly.cls _).between 1 3).weaken (by decide) (by decide) (by decide) (by decide)

theorem poly_ipv4 : Poly (reIpv4 env) 81 0 2000 0 := by
  have h : Poly (Re.seq ((Re.cls env.decimal).between 1 3) (chr '.')) 3 0 30 0 :=
    (poly_digits.seq (Poly.chr _)).weaken (by decide) (by decide) (by decide) (by decide)
  have h3 : Poly ((Re.seq ((Re.cls env.decimal).between 1 3) (chr '.')).times 3) 27 0 450 0 :=
    Poly.weaken (h.seq (h.seq h)) (by decide) (by decide) (by decide) (by decide)
  exact (h3.seq poly_digits).weaken (by decide) (by decide) (by decide) (by decide)

theorem poly_port : Poly (rePort env) 6 0 30 0 :=
  ((Poly.chr _).seq ((Poly.cls _).between 1 5)).opt.weaken (by decide) (by decide) (by decide) (by decide)

theorem poly_url (h1 : env.letter '.' = false) (h2 : env.number '.' = false) : Poly (reUrl env) 30000 4 160000 4 := by
  have hb : Poly (Re.seq (Re.plus (.cls (fun c => env.letter c || env.number c || c = '-'))) (chr '.')) 1 0 9 1 :=
    Poly.plusThen (by simp [h1, h2])
  have hlow : Poly (Re.cls (rng 'a' 'z')) 1 0 1 0 := Poly.cls _
  have e1 : Poly (opt (cat [.alt (.seq (Re.lit "http".toList) (opt (chr 's'))) (Re.lit "ftp".toList),
      Re.lit "://".toList, .nahead (chr '-')])) 6 0 100 0 := 
    Poly.weaken (Poly.catCons (((Poly.lit _).seq (Poly.chr _).opt).alt (Poly.lit _)) (Poly.catCons (Poly.lit _)
      (Poly.catOne (Poly.chr _).nahead))).opt (by decide) (by decide) (by decide) (by decide)
  have e2 : Poly (cat [
        Re.plus (.seq (Re.plus (.cls (fun c => env.letter c || env.number c || c = '-'))) (chr '.')),
        .alt ((Re.cls (rng 'a' 'z')).atLeast 2) (Re.lit "local".toList),
        opt (.seq (chr '.') ((Re.cls (rng 'a' 'z')).between 2 3))]) 18 2 300 2 := by
    refine Poly.weaken (Poly.catCons (hb.plus hb.starOne) (Poly.catCons (((hlow.times 2).seq hlow.starOne).alt (Poly.lit _))
      (Poly.catOne ((Poly.chr _).seq (hlow.between 2 3)).opt))) ?_ ?_ ?_ ?_ <;> decide
  have e3 : Poly (.seq (Re.lit "localhost".toList) (rePort env)) 6 0 60 0 :=
    ((Poly.lit _).seq poly_port).weaken (by decide) (by decide) (by decide) (by decide)
  have e4 : Poly (cat [(Re.cls env.decimal).between 1 3, chr '.', (Re.cls env.decimal).between 1 3, chr '.',
      (Re.cls env.decimal).between 1 3, chr '.', (Re.cls env.decimal).between 1 3, rePort env]) 500 0 4000 0 :=
    Poly.weaken (Poly.catCons poly_digits (Poly.catCons (Poly.chr _) (Poly.catCons poly_digits (Poly.catCons (Poly.chr _)
      (Poly.catCons poly_digits (Poly.catCons (Poly.chr _) (Poly.catCons poly_digits (Poly.catOne poly_port))))))))
      (by decide) (by decide) (by decide) (by decide)
  have e5 : Poly (opt (.seq (chr '/') (.star (.cls (fun c => env.letter c || env.number c ||
      oneOf "_/()~?=&%-#.:".toList c))))) 3 1 10 1 :=
    ((Poly.chr _).seq (Poly.starCls _)).opt.weaken (by decide) (by decide) (by decide) (by decide)
  have e6 : Poly (opt (.seq (chr '.') (Re.plus (.cls (rng 'a' 'z'))))) 3 1 10 1 :=
    ((Poly.chr _).seq (Poly.plusCls _)).opt.weaken (by decide) (by decide) (by decide) (by decide)
  exact Poly.weaken (Poly.catCons e1 (Poly.catCons (Poly.anyCons e2 (Poly.anyCons e3 (Poly.anyOne e4)))
    (Poly.catCons e5 (Poly.catOne e6)))) (by decide) (by decide) (by decide) (by decide)

theorem poly_hour2 : Poly reHour2 3 0 12 0 := 
  Poly.weaken (Poly.anyCons ((Poly.chr _).seq (Poly.cls _)) (Poly.anyCons ((Poly.chr _).seq (Poly.cls _)) (Poly.anyOne ((Poly.chr _).seq (Poly.cls _))))) (by decide) (by decide) (by decide) (by decide)
theorem poly_min : Poly reMin 1 0 3 0 := 
  Poly.weaken ((Poly.cls _).seq (Poly.cls _)) (by decide) (by decide) (by decide) (by decide)

theorem poly_times : Poly reTimeHHMMSSZZ 3 0 200 0 ∧ Poly reTimeHHMMSS 3 0 100 0 ∧ Poly reTimeHHMM1 3 0 50 0 ∧
    Poly reTimeHHMM2 3 0 50 0 ∧ Poly reTimeHH 3 0 50 0 ∧ Poly reTimeHMM 3 0 50 0 := by
  have hc := Poly.chr ':'
  refine ⟨?_, ?_, ?_, ?_, ?_, ?_⟩
  · exact Poly.weaken (Poly.catCons poly_hour2 (Poly.catCons hc (Poly.catCons poly_min (Poly.catCons hc (Poly.catCons poly_min
      (Poly.catCons (Poly.cls _) (Poly.catCons ((Poly.cls _).seq (Poly.cls _)) (Poly.catCons hc (Poly.catOne poly_min)))))))))
      (by decide) (by decide) (by decide) (by decide)
  · exact Poly.weaken (Poly.catCons poly_hour2 (Poly.catCons hc (Poly.catCons poly_min (Poly.catCons hc (Poly.catOne poly_min)))))
      (by decide) (by decide) (by decide) (by decide)
  · exact Poly.weaken (Poly.catCons poly_hour2 (Poly.catCons hc (Poly.catOne poly_min)))
      (by decide) (by decide) (by decide) (by decide)
  · exact Poly.weaken (poly_hour2.seq poly_min) (by decide) (by decide) (by decide) (by decide)
  · exact Poly.weaken (poly_hour2.seq poly_min) (by decide) (by decide) (by decide) (by decide)
  · exact Poly.weaken (Poly.catCons (Poly.anyCons (Poly.cls _) (Poly.anyCons ((Poly.chr _).seq (Poly.cls _)) (Poly.anyOne ((Poly.chr _).seq (Poly.cls _)))))
      (Poly.catCons hc (Poly.catOne poly_min))) (by decide) (by decide) (by decide) (by decide)

theorem poly_month2 : Poly reMonth2 2 0 10 0 := 
  Poly.weaken (((Poly.chr _).seq (Poly.cls _)).alt ((Poly.chr _).seq (Poly.cls _))) (by decide) (by decide) (by decide) (by decide)
theorem poly_month : Poly reMonth 3 0 15 0 := 
  Poly.weaken ((((Poly.chr _).opt).seq (Poly.cls _)).alt ((Poly.chr _).seq (Poly.cls _))) (by decide) (by decide) (by decide) (by decide)
theorem poly_month1 : Poly reMonth1 2 0 10 0 := 
  Poly.weaken ((Poly.cls _).alt ((Poly.chr _).seq (Poly.cls _))) (by decide) (by decide) (by decide) (by decide)
theorem poly_dayTail : Poly (reDayTail env) 2 0 10 0 := 
  Poly.weaken (((Poly.cls _).seq (Poly.cls _)).alt ((Poly.chr _).seq (Poly.cls _))) (by decide) (by decide) (by decide) (by decide)
theorem poly_day2 : Poly (reDay2 env) 3 0 20 0 :=
  Poly.weaken (((Poly.chr _).seq (Poly.cls _)).alt poly_dayTail) (by decide) (by decide) (by decide) (by decide)
theorem poly_day : Poly (reDay env) 4 0 20 0 :=
  Poly.weaken (((Poly.chr _).opt.seq (Poly.cls _)).alt poly_dayTail) (by decide) (by decide) (by decide) (by decide)
theorem poly_day1 : Poly (reDay1 env) 3 0 15 0 :=
  Poly.weaken ((Poly.cls _).alt poly_dayTail) (by decide) (by decide) (by decide) (by decide)
theorem poly_year : Poly (reYear env) 2 0 20 0 :=
  Poly.weaken (((Poly.cls _).seq ((Poly.cls _).times 3)).alt ((Poly.cls _).times 2)) (by decide) (by decide) (by decide) (by decide)

theorem poly_sep {mid last : Re} {c₁ w₁ c₂ w₂ : Nat} (i : Nat) (hm : Poly mid c₁ 0 w₁ 0) (hl : Poly last c₂ 0 w₂ 0) :
    Poly (reSep i mid last) (c₁ * c₂) 0 (5 + w₁ + c₁ * (2 + w₂)) 1 :=
  Poly.weaken (Poly.catCons ((Poly.cls _).grp i) (Poly.catCons hm (Poly.catCons (Poly.bref i) (Poly.catOne hl))))
    (by simp) (by simp) (by ring_nf; omega) (by simp)

theorem poly_date : Poly (reDate env) 200 0 3000 1 := by
  have e1 := Poly.seq poly_month2 (Poly.alt (Poly.seq (poly_day2 (env := env)) (poly_year (env := env)))
    (poly_sep 1 (poly_day (env := env)) (poly_year (env := env))))
  have e2 := Poly.seq (poly_day2 (env := env)) (Poly.alt (Poly.seq poly_month2 (poly_year (env := env)))
    (poly_sep 2 poly_month (poly_year (env := env))))
  have e3 := Poly.seq (poly_year (env := env)) (Poly.anyCons (poly_sep 3 poly_month (poly_day (env := env)))
    (Poly.anyCons (Poly.catCons (Poly.chr '年') (Poly.catCons poly_month (Poly.catCons (Poly.chr '月')
      (Poly.catCons (poly_day (env := env)) (Poly.catOne (Poly.chr '日'))))))
    (Poly.anyCons (Poly.catCons (Poly.chr '년') (Poly.catCons poly_month (Poly.catCons (Poly.chr '월')
      (Poly.catCons (poly_day (env := env)) (Poly.catOne (Poly.chr '일'))))))
    (Poly.anyOne (Poly.seq poly_month2 (poly_day2 (env := env)))))))
  have e4 := Poly.alt (Poly.seq poly_month1 (poly_sep 4 (poly_day (env := env)) (poly_year (env := env))))
    (Poly.seq (poly_day1 (env := env)) (poly_sep 5 poly_month (poly_year (env := env))))
  exact Poly.weaken (Poly.anyCons e1 (Poly.anyCons e2 (Poly.anyCons e3 (Poly.anyOne e4))))
    (by decide) (by decide) (by decide) (by decide)

theorem poly_alnum (specials : List Nat) : Poly (reAlnum env specials) 20 2 100 2 := 
  Poly.weaken ((Poly.catCons (Poly.cls _).opt (Poly.catCons (Poly.plusCls _) (Poly.catOne (Poly.starCls _)))).alt ((Poly.cls _).opt.seq (Poly.plusCls _))) (by decide) (by decide) (by decide) (by decide)

theorem poly_currency : Poly (reCurrency env) 4 1 20 1 := 
  Poly.weaken (Poly.catCons (Poly.cls _) (Poly.catCons (Poly.cls _).opt (Poly.catOne ((Poly.starCls _).grp 1)))) (by decide) (by decide) (by decide) (by decide)

theorem poly_unixPath : Poly reUnixPath 24 3 400 4 := by
  have hb := (Poly.chr '/').seq (Poly.plusCls (fun c => asciiAlnum c || oneOf ".-_".toList c))
  exact Poly.weaken (Poly.catCons (Poly.cls _).opt (Poly.catCons (hb.plus (Poly.starAfter (by decide)))
    (Poly.catOne (Poly.chr _).opt))) (by decide) (by decide) (by decide) (by decide)

end Clever
