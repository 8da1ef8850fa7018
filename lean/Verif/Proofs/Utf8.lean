import Verif.Model.Utf8
import Verif.Proofs.Streams

/-!
# Lemmas about UTF-8
-/

namespace Clever

theorem map_toNat_inj {a b : Bytes} (h : a.map UInt8.toNat = b.map UInt8.toNat) : a = b :=
  List.map_injective_iff.mpr (fun _ _ h => UInt8.toNat_inj.mp h) h

theorem char_bound (c : Char) : c.toNat < 0xD800 ∨ 0xE000 ≤ c.toNat ∧ c.toNat < 0x110000 := by
  have := c.valid
  simp only [UInt32.isValidChar, Nat.isValidChar] at this
  change c.val.toNat < 0xD800 ∨ 0xE000 ≤ c.val.toNat ∧ c.val.toNat < 0x110000
  omega

theorem toNat_ofNat_valid {n : Nat} (h : n < 0xD800 ∨ 0xE000 ≤ n ∧ n < 0x110000) : (Char.ofNat n).toNat = n := by
  have h' : n.isValidChar := by simp only [Nat.isValidChar]; omega
  simp only [Char.ofNat, h', dite_true]
  rfl

/-- The values of the bytes of a character. -/
theorem utf8Char_nats (c : Char) :
    c.toNat < 0x80 ∧ (utf8Char c).map UInt8.toNat = [c.toNat] ∨
    (∃ x y, c.toNat = 64 * x + y ∧ 2 ≤ x ∧ x < 32 ∧ y < 64 ∧ (utf8Char c).map UInt8.toNat = [0xC0 + x, 0x80 + y]) ∨
    (∃ x y z, c.toNat = 64 * (64 * x + y) + z ∧ x < 16 ∧ y < 64 ∧ z < 64 ∧ (x = 0 → 32 ≤ y) ∧ (x = 13 → y < 32) ∧
      (utf8Char c).map UInt8.toNat = [0xE0 + x, 0x80 + y, 0x80 + z]) ∨
    (∃ x y z u, c.toNat = 64 * (64 * (64 * x + y) + z) + u ∧ x < 5 ∧ y < 64 ∧ z < 64 ∧ u < 64 ∧ (x = 0 → 16 ≤ y) ∧
      (x = 4 → y < 16) ∧ (utf8Char c).map UInt8.toNat = [0xF0 + x, 0x80 + y, 0x80 + z, 0x80 + u]) := by
  have hb := char_bound c
  unfold utf8Char
  generalize c.toNat = n at *
  simp only
  split
  · refine .inl ⟨by assumption, ?_⟩
    simp only [List.map_cons, List.map_nil, UInt8.toNat_ofNat', List.cons.injEq, and_true]
    omega
  split
  · refine .inr (.inl ⟨n / 64, n % 64, by omega, by omega, by omega, by omega, ?_⟩)
    simp only [List.map_cons, List.map_nil, UInt8.toNat_ofNat', List.cons.injEq, and_true]
    omega
  split
  · refine .inr (.inr (.inl ⟨n / 4096, n / 64 % 64, n % 64, by omega, by omega, by omega, by omega, by omega, by omega, ?_⟩))
    simp only [List.map_cons, List.map_nil, UInt8.toNat_ofNat', List.cons.injEq, and_true]
    omega
  · refine .inr (.inr (.inr ⟨n / 262144, n / 4096 % 64, n / 64 % 64, n % 64, by omega, by omega, by omega, by omega, by omega,
      by omega, by omega, ?_⟩))
    simp only [List.map_cons, List.map_nil, UInt8.toNat_ofNat', List.cons.injEq, and_true]
    omega

/-- The bytes of a character that has begun, in a state of the decoder. -/
def Pending (s : Nat) (l : List Nat) : Prop :=
  s = 0 ∧ l = [] ∨
  (∃ x, s = 4 * x + 1 ∧ 2 ≤ x ∧ x < 32 ∧ l = [0xC0 + x]) ∨
  (∃ x, s = 4 * x + 2 ∧ x < 16 ∧ l = [0xE0 + x]) ∨
  (∃ x, s = 4 * x + 3 ∧ x < 5 ∧ l = [0xF0 + x]) ∨
  (∃ x y, s = 4 * (64 * x + y) + 1 ∧ x < 16 ∧ y < 64 ∧ (x = 0 → 32 ≤ y) ∧ (x = 13 → y < 32) ∧ l = [0xE0 + x, 0x80 + y]) ∨
  (∃ x y, s = 4 * (64 * x + y) + 2 ∧ x < 5 ∧ y < 64 ∧ (x = 0 → 16 ≤ y) ∧ (x = 4 → y < 16) ∧ l = [0xF0 + x, 0x80 + y]) ∨
  (∃ x y z, s = 4 * (64 * (64 * x + y) + z) + 1 ∧ x < 5 ∧ y < 64 ∧ z < 64 ∧ (x = 0 → 16 ≤ y) ∧ (x = 4 → y < 16) ∧
    l = [0xF0 + x, 0x80 + y, 0x80 + z])

theorem utf8_one {n : Nat} (h : n < 0x80) : (utf8Char (Char.ofNat n)).map UInt8.toNat = [n] := by
  have hn : (Char.ofNat n).toNat = n := toNat_ofNat_valid (by omega)
  rcases utf8Char_nats (Char.ofNat n) with ⟨-, h1⟩ | ⟨x, y, h1, h2, h3, h4, h5⟩ | ⟨x, y, z, h1, h2, h3, h4, h5, h6, -⟩ |
    ⟨x, y, z, u, h1, h2, h3, h4, h5, h6, h7, -⟩
  · rw [h1, hn]
  all_goals omega

theorem utf8_two {x y : Nat} (hx : 2 ≤ x) (hx' : x < 32) (hy : y < 64) :
    (utf8Char (Char.ofNat (64 * x + y))).map UInt8.toNat = [0xC0 + x, 0x80 + y] := by
  have hn : (Char.ofNat (64 * x + y)).toNat = 64 * x + y := toNat_ofNat_valid (by omega)
  rcases utf8Char_nats (Char.ofNat (64 * x + y)) with ⟨h1, -⟩ | ⟨x', y', h1, h2, h3, h4, h5⟩ | ⟨x', y', z', h1, h2, h3, h4, h5, h6, -⟩ |
    ⟨x', y', z', u', h1, h2, h3, h4, h5, h6, h7, -⟩
  · omega
  · obtain rfl : x = x' := by omega
    obtain rfl : y = y' := by omega
    exact h5
  · omega
  · omega

theorem utf8_three {x y z : Nat} (hx : x < 16) (hy : y < 64) (hz : z < 64) (h0 : x = 0 → 32 ≤ y) (h1 : x = 13 → y < 32) :
    (utf8Char (Char.ofNat (64 * (64 * x + y) + z))).map UInt8.toNat = [0xE0 + x, 0x80 + y, 0x80 + z] := by
  have hn : (Char.ofNat (64 * (64 * x + y) + z)).toNat = 64 * (64 * x + y) + z := toNat_ofNat_valid (by omega)
  rcases utf8Char_nats (Char.ofNat (64 * (64 * x + y) + z)) with ⟨h1, -⟩ | ⟨x', y', h1, h2, h3, h4, h5⟩ |
    ⟨x', y', z', h1, h2, h3, h4, h5, h6, h7⟩ | ⟨x', y', z', u', h1, h2, h3, h4, h5, h6, h7, -⟩
  · omega
  · omega
  · obtain rfl : x = x' := by omega
    obtain rfl : y = y' := by omega
    obtain rfl : z = z' := by omega
    exact h7
  · omega

theorem utf8_four {x y z u : Nat} (hx : x < 5) (hy : y < 64) (hz : z < 64) (hu : u < 64) (h0 : x = 0 → 16 ≤ y)
    (h1 : x = 4 → y < 16) :
    (utf8Char (Char.ofNat (64 * (64 * (64 * x + y) + z) + u))).map UInt8.toNat = [0xF0 + x, 0x80 + y, 0x80 + z, 0x80 + u] := by
  have hn : (Char.ofNat (64 * (64 * (64 * x + y) + z) + u)).toNat = 64 * (64 * (64 * x + y) + z) + u :=
    toNat_ofNat_valid (by omega)
  rcases utf8Char_nats (Char.ofNat (64 * (64 * (64 * x + y) + z) + u)) with ⟨h1, -⟩ | ⟨x', y', h1, h2, h3, h4, h5⟩ |
    ⟨x', y', z', h1, h2, h3, h4, h5, h6, h7⟩ | ⟨x', y', z', u', h1, h2, h3, h4, h5, h6, h7, h8⟩
  · omega
  · omega
  · omega
  · obtain rfl : x = x' := by omega
    obtain rfl : y = y' := by omega
    obtain rfl : z = z' := by omega
    obtain rfl : u = u' := by omega
    exact h8

/-- A byte of a character: either more are to come, or it is complete. -/
theorem pending_step {s : Nat} {l : List Nat} {b : UInt8} {s' : Nat} {t : Str} (h : Pending s l)
    (hs : utf8Step s b = some (s', t)) :
    t = [] ∧ Pending s' (l ++ [b.toNat]) ∨ s' = 0 ∧ ∃ c, t = [c] ∧ (utf8Char c).map UInt8.toNat = l ++ [b.toNat] := by
  unfold utf8Step at hs
  generalize b.toNat = n at *
  simp only at hs
  rcases h with ⟨rfl, rfl⟩ | ⟨x, rfl, hx, hx', rfl⟩ | ⟨x, rfl, hx, rfl⟩ | ⟨x, rfl, hx, rfl⟩ | ⟨x, y, rfl, hx, hy, h0, h1, rfl⟩ |
    ⟨x, y, rfl, hx, hy, h0, h1, rfl⟩ | ⟨x, y, z, rfl, hx, hy, hz, h0, h1, rfl⟩
  · rw [if_pos (by omega)] at hs
    split at hs
    · simp only [Option.some.injEq, Prod.mk.injEq] at hs
      obtain ⟨rfl, rfl⟩ := hs
      exact .inr ⟨rfl, _, rfl, by rw [utf8_one (by assumption)]; rfl⟩
    split at hs
    · cases hs
    split at hs
    · simp only [Option.some.injEq, Prod.mk.injEq] at hs
      obtain ⟨rfl, rfl⟩ := hs
      refine .inl ⟨rfl, .inr (.inl ⟨n - 0xC0, rfl, by omega, by omega, ?_⟩)⟩
      simp only [List.nil_append, List.cons.injEq, and_true]; omega
    split at hs
    · simp only [Option.some.injEq, Prod.mk.injEq] at hs
      obtain ⟨rfl, rfl⟩ := hs
      refine .inl ⟨rfl, .inr (.inr (.inl ⟨n - 0xE0, rfl, by omega, ?_⟩))⟩
      simp only [List.nil_append, List.cons.injEq, and_true]; omega
    split at hs
    · simp only [Option.some.injEq, Prod.mk.injEq] at hs
      obtain ⟨rfl, rfl⟩ := hs
      refine .inl ⟨rfl, .inr (.inr (.inr (.inl ⟨n - 0xF0, rfl, by omega, ?_⟩)))⟩
      simp only [List.nil_append, List.cons.injEq, and_true]; omega
    · cases hs
  all_goals
    rw [if_neg (by omega)] at hs
    split at hs
    · cases hs
    split at hs
    · cases hs
    split at hs
    · cases hs
    rename_i g1 g2 g3
    obtain ⟨m, rfl⟩ : ∃ m, n = 0x80 + m := ⟨n - 0x80, by omega⟩
  · rw [if_pos (by omega), show (4 * x + 1) / 4 = x by omega, show 0x80 + m - 0x80 = m by omega] at hs
    simp only [Option.some.injEq, Prod.mk.injEq] at hs
    obtain ⟨rfl, rfl⟩ := hs
    exact .inr ⟨rfl, _, rfl, utf8_two hx hx' (by omega)⟩
  · rw [if_neg (by omega), show (4 * x + 2) / 4 = x by omega, show (4 * x + 2) % 4 = 2 by omega,
      show 0x80 + m - 0x80 = m by omega] at hs
    simp only [Option.some.injEq, Prod.mk.injEq] at hs
    obtain ⟨rfl, rfl⟩ := hs
    exact .inl ⟨rfl, .inr (.inr (.inr (.inr (.inl ⟨x, m, rfl, hx, by omega, by omega, by omega, rfl⟩))))⟩
  · rw [if_neg (by omega), show (4 * x + 3) / 4 = x by omega, show (4 * x + 3) % 4 = 3 by omega,
      show 0x80 + m - 0x80 = m by omega] at hs
    simp only [Option.some.injEq, Prod.mk.injEq] at hs
    obtain ⟨rfl, rfl⟩ := hs
    exact .inl ⟨rfl, .inr (.inr (.inr (.inr (.inr (.inl ⟨x, m, rfl, hx, by omega, by omega, by omega, rfl⟩)))))⟩
  · rw [if_pos (by omega), show (4 * (64 * x + y) + 1) / 4 = 64 * x + y by omega, show 0x80 + m - 0x80 = m by omega] at hs
    simp only [Option.some.injEq, Prod.mk.injEq] at hs
    obtain ⟨rfl, rfl⟩ := hs
    exact .inr ⟨rfl, _, rfl, utf8_three hx hy (by omega) h0 h1⟩
  · rw [if_neg (by omega), show (4 * (64 * x + y) + 2) / 4 = 64 * x + y by omega,
      show (4 * (64 * x + y) + 2) % 4 = 2 by omega, show 0x80 + m - 0x80 = m by omega] at hs
    simp only [Option.some.injEq, Prod.mk.injEq] at hs
    obtain ⟨rfl, rfl⟩ := hs
    exact .inl ⟨rfl, .inr (.inr (.inr (.inr (.inr (.inr ⟨x, y, m, rfl, hx, hy, by omega, h0, h1, rfl⟩)))))⟩
  · rw [if_pos (by omega), show (4 * (64 * (64 * x + y) + z) + 1) / 4 = 64 * (64 * x + y) + z by omega,
      show 0x80 + m - 0x80 = m by omega] at hs
    simp only [Option.some.injEq, Prod.mk.injEq] at hs
    obtain ⟨rfl, rfl⟩ := hs
    exact .inr ⟨rfl, _, rfl, utf8_four hx hy hz (by omega) h0 h1⟩

theorem cons_of_map {l : Bytes} {n : Nat} {ns : List Nat} (h : l.map UInt8.toNat = n :: ns) :
    ∃ b l', l = b :: l' ∧ b.toNat = n ∧ l'.map UInt8.toNat = ns := by
  cases l with
  | nil => simp at h
  | cons b l' => simp at h; exact ⟨b, l', rfl, h.1, h.2⟩

theorem utf8_feed_cons {s : Nat} {b : UInt8} {bs : Bytes} {s' : Nat} {t : Str} (h : utf8Step s b = some (s', t)) :
    utf8Decoder.feed s (b :: bs) = (utf8Decoder.feed s' bs).map fun x => (x.1, t ++ x.2) := by
  simp only [Decoder.feed]
  change (match utf8Step s b with | none => none | some (s', t) => _) = _
  rw [h]
  simp only
  cases utf8Decoder.feed s' bs <;> rfl

/-- A continuation byte. -/
theorem utf8Step_next {a k m : Nat} {b : UInt8} (hb : b.toNat = 0x80 + m) (hm : m < 64) (hk : k < 4) (hk0 : k ≠ 0)
    (h2 : k = 2 → (a = 0 → 32 ≤ m) ∧ (a = 13 → m < 32)) (h3 : k = 3 → (a = 0 → 16 ≤ m) ∧ (a = 4 → m < 16)) :
    utf8Step (4 * a + k) b =
      if k = 1 then some (0, [Char.ofNat (64 * a + m)]) else some (4 * (64 * a + m) + (k - 1), []) := by
  unfold utf8Step
  rw [hb]
  simp only [show (4 * a + k) % 4 = k by omega, show (4 * a + k) / 4 = a by omega, show 0x80 + m - 0x80 = m by omega]
  rw [if_neg hk0, if_neg (by omega), if_neg (by omega), if_neg (by omega)]

/-- Decoding a character. -/
theorem utf8_feed_char (c : Char) : utf8Decoder.feed 0 (utf8Char c) = some (0, [c]) := by
  rcases utf8Char_nats c with ⟨h1, h2⟩ | ⟨x, y, h1, h2, h3, h4, h5⟩ | ⟨x, y, z, h1, h2, h3, h4, h5, h6, h7⟩ |
    ⟨x, y, z, u, h1, h2, h3, h4, h5, h6, h7, h8⟩
  · obtain ⟨b, l, e, hb, hl⟩ := cons_of_map h2
    have hl := List.map_eq_nil_iff.mp hl
    subst hl
    rw [e, utf8_feed_cons (s' := 0) (t := [c])]
    · rfl
    · unfold utf8Step
      rw [hb]
      simp [h1]
  · obtain ⟨b, l, e, hb, hl⟩ := cons_of_map h5
    obtain ⟨b2, l, rfl, hb2, hl⟩ := cons_of_map hl
    have hl := List.map_eq_nil_iff.mp hl
    subst hl
    have s1 : utf8Step 0 b = some (4 * x + 1, []) := by
      unfold utf8Step
      rw [hb]
      simp only
      rw [if_pos trivial, if_neg (by omega), if_neg (by omega), if_pos (by omega), show 0xC0 + x - 0xC0 = x by omega]
    rw [e, utf8_feed_cons s1, utf8_feed_cons (by rw [utf8Step_next hb2 h4 (by omega) (by omega) (by omega) (by omega), if_pos rfl]),
      ← h1, Char.ofNat_toNat]
    rfl
  · obtain ⟨b, l, e, hb, hl⟩ := cons_of_map h7
    obtain ⟨b2, l, rfl, hb2, hl⟩ := cons_of_map hl
    obtain ⟨b3, l, rfl, hb3, hl⟩ := cons_of_map hl
    have hl := List.map_eq_nil_iff.mp hl
    subst hl
    have s1 : utf8Step 0 b = some (4 * x + 2, []) := by
      unfold utf8Step
      rw [hb]
      simp only
      rw [if_pos trivial, if_neg (by omega), if_neg (by omega), if_neg (by omega), if_pos (by omega),
        show 0xE0 + x - 0xE0 = x by omega]
    rw [e, utf8_feed_cons s1,
      utf8_feed_cons (by rw [utf8Step_next hb2 h3 (by omega) (by omega) (by omega) (by omega), if_neg (by omega)]),
      utf8_feed_cons (by rw [utf8Step_next hb3 h4 (by omega) (by omega) (by omega) (by omega), if_pos rfl]),
      ← h1, Char.ofNat_toNat]
    rfl
  · obtain ⟨b, l, e, hb, hl⟩ := cons_of_map h8
    obtain ⟨b2, l, rfl, hb2, hl⟩ := cons_of_map hl
    obtain ⟨b3, l, rfl, hb3, hl⟩ := cons_of_map hl
    obtain ⟨b4, l, rfl, hb4, hl⟩ := cons_of_map hl
    have hl := List.map_eq_nil_iff.mp hl
    subst hl
    have s1 : utf8Step 0 b = some (4 * x + 3, []) := by
      unfold utf8Step
      rw [hb]
      simp only
      rw [if_pos trivial, if_neg (by omega), if_neg (by omega), if_neg (by omega), if_neg (by omega), if_pos (by omega),
        show 0xF0 + x - 0xF0 = x by omega]
    rw [e, utf8_feed_cons s1,
      utf8_feed_cons (by rw [utf8Step_next hb2 h3 (by omega) (by omega) (by omega) (by omega), if_neg (by omega)]),
      utf8_feed_cons (by rw [utf8Step_next hb3 h4 (by omega) (by omega) (by omega) (by omega), if_neg (by omega)]),
      utf8_feed_cons (by rw [utf8Step_next hb4 h5 (by omega) (by omega) (by omega) (by omega), if_pos rfl]),
      ← h1, Char.ofNat_toNat]
    rfl

theorem utf8_feed_text (t : Str) : utf8Decoder.feed 0 (t.flatMap utf8Char) = some (0, t) := by
  induction t with
  | nil => rfl
  | cons c t ih =>
    rw [List.flatMap_cons, Decoder.feed_append, utf8_feed_char, Option.bind_some]
    simp only [ih]
    rfl

/-- What has been decoded, and the beginning of a character. -/
theorem utf8_feed_inv : ∀ (b : Bytes) (s : Nat) (pre : Bytes) (s' : Nat) (t : Str), Pending s (pre.map UInt8.toNat) →
    utf8Decoder.feed s b = some (s', t) →
    ∃ tail : Bytes, pre ++ b = t.flatMap utf8Char ++ tail ∧ Pending s' (tail.map UInt8.toNat)
  | [], s, pre, s', t, hp, h => by
    simp only [Decoder.feed, Option.some.injEq, Prod.mk.injEq] at h
    obtain ⟨rfl, rfl⟩ := h
    exact ⟨pre, by simp, hp⟩
  | x :: b, s, pre, s', t, hp, h => by
    cases hs : utf8Step s x with
    | none =>
      simp only [Decoder.feed] at h
      rw [show utf8Decoder.step s x = none from hs] at h
      cases h
    | some r =>
      obtain ⟨s1, t1⟩ := r
      rw [utf8_feed_cons hs] at h
      cases hf : utf8Decoder.feed s1 b with
      | none => rw [hf] at h; cases h
      | some r =>
        obtain ⟨s2, t2⟩ := r
        rw [hf] at h
        simp only [Option.map_some, Option.some.injEq, Prod.mk.injEq] at h
        obtain ⟨rfl, rfl⟩ := h
        rcases pending_step hp hs with ⟨rfl, h1⟩ | ⟨rfl, c, rfl, h1⟩
        · obtain ⟨tail, h2, h3⟩ := utf8_feed_inv b s1 (pre ++ [x]) s2 t2 (by simpa using h1) hf
          exact ⟨tail, by simpa using h2, h3⟩
        · obtain ⟨tail, h2, h3⟩ := utf8_feed_inv b 0 [] s2 t2 (.inl ⟨rfl, rfl⟩) hf
          refine ⟨tail, ?_, h3⟩
          have h4 : utf8Char c = pre ++ [x] := map_toNat_inj (by simpa using h1)
          rw [List.nil_append] at h2
          simp [List.flatMap_cons, h4, h2]

/-- A beginning of a character can be continued. -/
theorem pending_ext {s : Nat} {l : Bytes} (h : Pending s (l.map UInt8.toNat)) : l = [] ∨ ∃ c rest, l ++ rest = utf8Char c := by
  have key : ∀ (c : Char) (ns : List Nat), (∀ n ∈ ns, n < 256) → (utf8Char c).map UInt8.toNat = l.map UInt8.toNat ++ ns →
      ∃ c rest, l ++ rest = utf8Char c := by
    intro c ns hns e
    refine ⟨c, ns.map UInt8.ofNat, map_toNat_inj ?_⟩
    rw [List.map_append, e, List.map_map]
    congr 1
    conv_rhs => rw [← List.map_id ns]
    refine List.map_congr_left fun n hn => ?_
    simp only [Function.comp, UInt8.toNat_ofNat', id]
    have := hns n hn
    omega
  rcases h with ⟨rfl, h⟩ | ⟨x, rfl, hx, hx', h⟩ | ⟨x, rfl, hx, h⟩ | ⟨x, rfl, hx, h⟩ | ⟨x, y, rfl, hx, hy, h0, h1, h⟩ |
    ⟨x, y, rfl, hx, hy, h0, h1, h⟩ | ⟨x, y, z, rfl, hx, hy, hz, h0, h1, h⟩
  · exact .inl (List.map_eq_nil_iff.mp h)
  · exact .inr (key _ [0x80 + 0] (by simp) (by rw [h]; exact utf8_two hx hx' (by omega)))
  · by_cases h0 : x = 0
    · exact .inr (key _ [0x80 + 32, 0x80 + 0] (by simp) (by rw [h]; exact utf8_three hx (by omega) (by omega) (by omega) (by omega)))
    · exact .inr (key _ [0x80 + 0, 0x80 + 0] (by simp) (by rw [h]; exact utf8_three hx (by omega) (by omega) (by omega) (by omega)))
  · by_cases h0 : x = 0
    · exact .inr (key _ [0x80 + 16, 0x80 + 0, 0x80 + 0] (by simp)
        (by rw [h]; exact utf8_four hx (by omega) (by omega) (by omega) (by omega) (by omega)))
    · exact .inr (key _ [0x80 + 0, 0x80 + 0, 0x80 + 0] (by simp)
        (by rw [h]; exact utf8_four hx (by omega) (by omega) (by omega) (by omega) (by omega)))
  · exact .inr (key _ [0x80 + 0] (by simp) (by rw [h]; exact utf8_three hx hy (by omega) h0 h1))
  · exact .inr (key _ [0x80 + 0, 0x80 + 0] (by simp) (by rw [h]; exact utf8_four hx hy (by omega) (by omega) h0 h1))
  · exact .inr (key _ [0x80 + 0] (by simp) (by rw [h]; exact utf8_four hx hy hz (by omega) h0 h1))

end Clever
