import Verif.Model.Suggest
import Mathlib.Tactic.Linarith
import Mathlib.Tactic.Positivity
import Mathlib.Tactic.FieldSimp
import Mathlib.Tactic.NormNum
import Mathlib.Algebra.Order.Floor.Ring
import Mathlib.Data.Rat.Floor

/-!
# Suggestions (C43)
-/

set_option linter.unusedSimpArgs false

namespace RE

/-! ## The loops do not fail -/

theorem jaroFind_ok (c : Char) (s2 : List Char) (m2 : List Bool) (hlen : s2.length ≤ m2.length) :
    ∀ js : List Nat, (∀ j ∈ js, j < s2.length) →
    ∃ r, jaroFind c s2 m2 js = some r ∧
      ∀ j, r = some j → j < s2.length ∧ m2[j]? = some false ∧ s2[j]? = some c
  | [], _ => ⟨none, rfl, by simp⟩
  | j :: js, h => by
    obtain ⟨r, hr, hs⟩ := jaroFind_ok c s2 m2 hlen js fun x hx => h x (List.mem_cons_of_mem _ hx)
    have hj := h j (by simp)
    have h2 : m2[j]? = some m2[j] := List.getElem?_eq_getElem (by omega)
    have h3 : s2[j]? = some s2[j] := List.getElem?_eq_getElem hj
    simp only [jaroFind, h2, h3, Option.bind_eq_bind, Option.bind_some]
    split
    · exact ⟨r, hr, hs⟩
    · rename_i hm
      split
      · rename_i hc
        refine ⟨some j, rfl, fun j' hj' => ?_⟩
        cases hj'
        refine ⟨hj, ?_, ?_⟩
        · rw [h2]; simpa using hm
        · rw [h3, hc]
      · exact ⟨r, hr, hs⟩

theorem mem_window {len2 i j : Nat} {d : Int} (h : j ∈ jaroWindow len2 d i) : j < len2 := by
  simp only [jaroWindow, List.mem_range'_1] at h
  omega

/-- what the matching loop establishes -/
structure JaroInv (s1 s2 : List Char) (m1 m2 : List Bool) (n i : Nat) : Prop where
  len1 : s1.length ≤ m1.length
  len2 : s2.length ≤ m2.length
  count1 : m1.count true = n
  count2 : m2.count true = n
  free : ∀ j, i ≤ j → j < m1.length → m1[j]? = some false
  within : ∀ j, m2[j]? = some true → j < s2.length
  le : n ≤ i

theorem count_set_true {m : List Bool} {i : Nat} (h : m[i]? = some false) :
    (m.set i true).count true = m.count true + 1 := by
  obtain ⟨hi, hv⟩ := List.getElem?_eq_some_iff.1 h
  rw [List.count_set hi]
  simp [hv]

theorem jaroMatch_ok (s1 s2 : List Char) (d : Int) : ∀ (k i : Nat) (m1 m2 : List Bool) (n : Nat),
    i + k = s1.length → JaroInv s1 s2 m1 m2 n i →
    ∃ m1' m2' n', jaroMatch s1 s2 d (List.range' i k) (m1, m2, n) = some (m1', m2', n') ∧
      JaroInv s1 s2 m1' m2' n' s1.length
  | 0, i, m1, m2, n, hk, inv => by
    refine ⟨m1, m2, n, rfl, ?_⟩
    have : s1.length = i := by omega
    rw [this]; exact inv
  | k + 1, i, m1, m2, n, hk, inv => by
    have hi : i < s1.length := by omega
    have hc : s1[i]? = some s1[i] := List.getElem?_eq_getElem hi
    obtain ⟨r, hr, hs⟩ := jaroFind_ok s1[i] s2 m2 inv.len2 (jaroWindow s2.length d i)
      fun j hj => mem_window hj
    simp only [List.range'_succ, jaroMatch, hc, hr, Option.bind_eq_bind, Option.bind_some]
    cases r with
    | none =>
      refine jaroMatch_ok s1 s2 d k (i + 1) m1 m2 n (by omega) ?_
      exact { inv with free := fun j hj => inv.free j (by omega), le := by have := inv.le; omega }
    | some j =>
      obtain ⟨h1, h2, h3⟩ := hs j rfl
      have hf : m1[i]? = some false := inv.free i (le_refl i) (by have := inv.len1; omega)
      refine jaroMatch_ok s1 s2 d k (i + 1) (m1.set i true) (m2.set j true) (n + 1) (by omega) ?_
      refine ⟨by simpa using inv.len1, by simpa using inv.len2, ?_, ?_, ?_, ?_, by have := inv.le; omega⟩
      · rw [count_set_true hf, inv.count1]
      · rw [count_set_true h2, inv.count2]
      · intro x hx hx'
        rw [List.getElem?_set_ne (by omega)]
        exact inv.free x (by omega) (by simpa using hx')
      · intro x hx
        by_cases hxj : j = x
        · omega
        · rw [List.getElem?_set_ne hxj] at hx
          exact inv.within x hx

/-- the next matched character of the second string -/
theorem jaroNext_ok {m2 : List Bool} {k : Nat} (h : 0 < (m2.drop k).count true) :
    ∃ k', jaroNext m2 k = some k' ∧ k ≤ k' ∧ m2[k']? = some true ∧
      (m2.drop k).count true = (m2.drop (k' + 1)).count true + 1 := by
  generalize hl : m2.drop k = l at h
  have key : ∀ l : List Bool, 0 < l.count true → ∃ d, l.findIdx? id = some d ∧ l[d]? = some true ∧
      l.count true = (l.drop (d + 1)).count true + 1 := by
    intro l
    induction l with
    | nil => simp
    | cons a t ih =>
      intro h
      cases a with
      | true => exact ⟨0, by simp [List.findIdx?_cons], rfl, by simp⟩
      | false =>
        obtain ⟨d, h1, h2, h3⟩ := ih (by simpa using h)
        exact ⟨d + 1, by simp [List.findIdx?_cons, h1], by simpa using h2, by simpa using h3⟩
  obtain ⟨d, h1, h2, h3⟩ := key l h
  subst hl
  refine ⟨k + d, by simp [jaroNext, h1], by omega, by simpa [List.getElem?_drop] using h2, ?_⟩
  rw [h3, List.drop_drop]
  congr 2

theorem jaroTrans_ok (s1 s2 : List Char) (m1 m2 : List Bool) (hlen1 : s1.length ≤ m1.length)
    (within : ∀ j, m2[j]? = some true → j < s2.length) : ∀ (r i k t : Nat), i + r = s1.length →
    ((m1.drop i).take r).count true ≤ (m2.drop k).count true →
    ∃ t', jaroTrans s1 s2 m1 m2 (List.range' i r) k t = some t' ∧ t ≤ t' ∧
      t' ≤ t + ((m1.drop i).take r).count true
  | 0, i, k, t, _, _ => ⟨t, rfl, le_refl _, by omega⟩
  | r + 1, i, k, t, hr, hcount => by
    have hi : i < s1.length := by omega
    have hi1 : i < m1.length := by omega
    have h1 : m1[i]? = some m1[i] := List.getElem?_eq_getElem hi1
    have hc : s1[i]? = some s1[i] := List.getElem?_eq_getElem hi
    rw [List.drop_eq_getElem_cons hi1, List.take_succ_cons] at hcount ⊢
    simp only [List.range'_succ, jaroTrans, h1, hc, Option.bind_eq_bind, Option.bind_some]
    cases hb : m1[i] with
    | false =>
      rw [hb] at hcount
      simp only [List.count_cons, beq_iff_eq, Bool.false_eq_true, if_false, Nat.add_zero] at hcount
      simpa using jaroTrans_ok s1 s2 m1 m2 hlen1 within r (i + 1) k t (by omega) hcount
    | true =>
      rw [hb] at hcount
      simp only [List.count_cons_self] at hcount
      obtain ⟨k', hk', hle, hm, hcnt⟩ := jaroNext_ok (m2 := m2) (k := k) (by omega)
      have hk2 : k' < s2.length := within k' hm
      have hd : s2[k']? = some s2[k'] := List.getElem?_eq_getElem hk2
      simp only [Bool.not_true, Bool.false_eq_true, if_false, hk', hd, Option.bind_some,
        List.count_cons_self]
      obtain ⟨t', ht', hle', hub⟩ := jaroTrans_ok s1 s2 m1 m2 hlen1 within r (i + 1) (k' + 1)
        (if s1[i] ≠ s2[k'] then t + 1 else t) (by omega) (by omega)
      refine ⟨t', ht', ?_, ?_⟩ <;> split at hle' <;> split at hub <;> omega

/-! ## Rounding -/

/-- Specification: rounding to a floating point format with at least 53 binary digits: monotone, and
exact on numbers that have the form `k / 2 ^ m`, `|k| ≤ 2 ^ 53` (with a small exponent), and exact on
the difference of two floating point numbers within a factor of two (Sterbenz). -/
structure FloatRounding (fl : ℚ → ℚ) : Prop where
  mono : ∀ a b, a ≤ b → fl a ≤ fl b
  exact : ∀ (k : ℤ) (m : ℕ), |k| ≤ 2 ^ 53 → m ≤ 60 → fl (k / 2 ^ m) = k / 2 ^ m
  sterbenz : ∀ a b, fl b / 2 ≤ fl a → fl a ≤ 2 * fl b → fl (fl a - fl b) = fl a - fl b

/-- exact arithmetic meets the specification -/
theorem FloatRounding.id : FloatRounding id :=
  ⟨fun _ _ h => h, fun _ _ _ _ => rfl, fun _ _ _ _ => rfl⟩

/-- and so does a rounding that is not exact: down to a multiple of `2 ^ (-60)` -/
theorem FloatRounding.fixed : FloatRounding fun a => (⌊a * 2 ^ 60⌋ : ℚ) / 2 ^ 60 := by
  have grid : ∀ z : ℤ, (⌊((z : ℚ) / 2 ^ 60) * 2 ^ 60⌋ : ℚ) / 2 ^ 60 = z / 2 ^ 60 := by
    intro z
    rw [div_mul_cancel₀ _ (by positivity), Int.floor_intCast]
  refine ⟨fun a b h => ?_, fun k m _ hm => ?_, fun a b _ _ => ?_⟩
  · refine div_le_div_of_nonneg_right ?_ (by positivity)
    exact_mod_cast Int.floor_le_floor (mul_le_mul_of_nonneg_right h (by positivity))
  · have : (k : ℚ) / 2 ^ m = ((k * 2 ^ (60 - m) : ℤ) : ℚ) / 2 ^ 60 := by
      push_cast
      rw [show (60 : ℕ) = m + (60 - m) by omega, pow_add]
      field_simp
      congr 2
      omega
    simp only [this]
    exact grid _
  · have := grid (⌊a * 2 ^ 60⌋ - ⌊b * 2 ^ 60⌋)
    push_cast at this
    simpa only [sub_div] using this

namespace FloatRounding
variable {fl : ℚ → ℚ} (h : FloatRounding fl)
include h

theorem zero : fl 0 = 0 := by have := h.exact 0 0 (by norm_num) (by norm_num); simpa using this
theorem one : fl 1 = 1 := by have := h.exact 1 0 (by norm_num) (by norm_num); simpa using this
theorem two : fl 2 = 2 := by have := h.exact 2 0 (by norm_num) (by norm_num); simpa using this
theorem three : fl 3 = 3 := by have := h.exact 3 0 (by norm_num) (by norm_num); simpa using this
theorem eighth : fl (1 / 8) = 1 / 8 := by
  have := h.exact 1 3 (by norm_num) (by norm_num)
  norm_num at this ⊢; exact this

theorem nonneg {a : ℚ} (ha : 0 ≤ a) : 0 ≤ fl a := h.zero ▸ h.mono 0 a ha
theorem le_one {a : ℚ} (ha : a ≤ 1) : fl a ≤ 1 := h.one ▸ h.mono a 1 ha
theorem le_two {a : ℚ} (ha : a ≤ 2) : fl a ≤ 2 := h.two ▸ h.mono a 2 ha
theorem le_three {a : ℚ} (ha : a ≤ 3) : fl a ≤ 3 := h.three ▸ h.mono a 3 ha

end FloatRounding

theorem div_unit {a b : ℚ} (ha : 0 ≤ a) (hb : 0 < b) (hab : a ≤ b) : 0 ≤ a / b ∧ a / b ≤ 1 :=
  ⟨div_nonneg ha hb.le, (div_le_one hb).2 hab⟩

/-! ## The score -/

theorem jaroDistance_ok {fl : ℚ → ℚ} (h : FloatRounding fl) (s1 s2 : List Char) (hshort : s1.length ≤ 2 ^ 53) :
    ∃ d, jaroDistance fl s1 s2 = some d ∧ 0 ≤ d ∧ d ≤ 1 := by
  unfold jaroDistance
  split
  · exact ⟨1, rfl, by norm_num, le_refl _⟩
  have inv0 : JaroInv s1 s2 (List.replicate (max s1.length s2.length) false)
      (List.replicate (max s1.length s2.length) false) 0 0 := by
    refine ⟨by simp, by simp, by simp [List.count_replicate], by simp [List.count_replicate], ?_, ?_, le_refl _⟩
    · intro j _ hj
      simp only [List.length_replicate] at hj
      simp [List.getElem?_replicate, hj]
    · intro j hj
      simp [List.getElem?_replicate] at hj
  obtain ⟨m1, m2, n, hm, inv⟩ := jaroMatch_ok s1 s2 ((max s1.length s2.length / 2 : Nat) - 1)
    s1.length 0 _ _ 0 (by omega) inv0
  simp only [hm, Option.bind_eq_bind, Option.bind_some]
  split
  · exact ⟨0, rfl, le_refl _, by norm_num⟩
  rename_i hn
  have hsub : ((m1.drop 0).take s1.length).count true ≤ n := by
    rw [← inv.count1, List.drop_zero]
    exact (List.take_sublist _ _).count_le true
  obtain ⟨t, ht, -, hub⟩ := jaroTrans_ok s1 s2 m1 m2 inv.len1 inv.within s1.length 0 0 0 (by omega)
    (by rw [List.drop_zero (l := m2), inv.count2]; exact hsub)
  have ht' : t ≤ n := by omega
  have hl1 : n ≤ s1.length := inv.le
  have hl2 : n ≤ s2.length := by
    have : (m2.take s2.length).count true = m2.count true := by
      conv_rhs => rw [← List.take_append_drop s2.length m2, List.count_append]
      have : (m2.drop s2.length).count true = 0 := by
        rw [List.count_eq_zero]
        intro hmem
        obtain ⟨j, hj⟩ := List.getElem?_of_mem hmem
        rw [List.getElem?_drop] at hj
        have := inv.within _ hj
        omega
      omega
    rw [← inv.count2, ← this]
    exact (List.count_le_length).trans (List.length_take_le _ _)
  have hnq : (0 : ℚ) < n := by exact_mod_cast Nat.pos_of_ne_zero hn
  have h1q : (n : ℚ) ≤ s1.length := by exact_mod_cast hl1
  have h2q : (n : ℚ) ≤ s2.length := by exact_mod_cast hl2
  have htq : (t : ℚ) ≤ n := by exact_mod_cast ht'
  have ht0 : (0 : ℚ) ≤ t := by positivity
  have n1 : (s1.length : ℚ) ≠ 0 := by intro hc; rw [hc] at h1q; linarith
  have n2 : (s2.length : ℚ) ≠ 0 := by intro hc; rw [hc] at h2q; linarith
  have p1 : (0 : ℚ) < s1.length := lt_of_lt_of_le hnq h1q
  have p2 : (0 : ℚ) < s2.length := lt_of_lt_of_le hnq h2q
  simp only [ht, flDiv, n1, n2, hnq.ne', if_false, Option.bind_some,
    show (2 : ℚ) ≠ 0 by norm_num, show (3 : ℚ) ≠ 0 by norm_num]
  refine ⟨_, rfl, ?_⟩
  -- bounds for the five roundings
  have a := div_unit hnq.le p1 h1q
  have b := div_unit hnq.le p2 h2q
  have a0 := h.nonneg a.1
  have a1 := h.le_one a.2
  have b0 := h.nonneg b.1
  have b1 := h.le_one b.2
  · -- `t / 2` and `n` are exact
    have hn53 : n ≤ 2 ^ 53 := hl1.trans hshort
    have et : fl ((t : ℚ) / 2) = t / 2 := by
      have := h.exact t 1 (by rw [abs_of_nonneg (by positivity)]; exact_mod_cast ht'.trans hn53) (by norm_num)
      norm_num at this ⊢; exact this
    have en : fl (n : ℚ) = n := by
      have := h.exact n 0 (by rw [abs_of_nonneg (by positivity)]; exact_mod_cast hn53) (by norm_num)
      norm_num at this ⊢; exact this
    rw [et]
    have c0 : 0 ≤ fl ((n : ℚ) - t / 2) := h.nonneg (by linarith)
    have c1 : fl ((n : ℚ) - t / 2) ≤ n := (h.mono _ _ (by linarith)).trans en.le
    have c := div_unit c0 hnq c1
    have c0' := h.nonneg c.1
    have c1' := h.le_one c.2
    have s0 : 0 ≤ fl (fl (n / s1.length) + fl (n / s2.length)) := h.nonneg (by linarith)
    have s1' : fl (fl (n / s1.length) + fl (n / s2.length)) ≤ 2 := h.le_two (by linarith)
    have u0 := h.nonneg (a := fl (fl (n / s1.length) + fl (n / s2.length)) +
      fl (fl ((n : ℚ) - t / 2) / n)) (by linarith)
    have u1 := h.le_three (a := fl (fl (n / s1.length) + fl (n / s2.length)) +
      fl (fl ((n : ℚ) - t / 2) / n)) (by linarith)
    exact ⟨h.nonneg (by positivity), h.le_one (by rw [div_le_one (by norm_num)]; exact u1)⟩

theorem jaroPrefix_le (s1 s2 : List Char) : jaroPrefix s1 s2 ≤ 5 := by
  unfold jaroPrefix
  refine (List.takeWhile_sublist _).length_le.trans ?_
  simp only [List.length_zip, List.length_take]
  omega

/-- the scores are floating point numbers -/
theorem jaroDistance_fl {fl : ℚ → ℚ} (h : FloatRounding fl) {s1 s2 : List Char} {d : ℚ}
    (hd : jaroDistance fl s1 s2 = some d) : ∃ x, d = fl x := by
  unfold jaroDistance at hd
  by_cases he : s1 = s2
  · rw [if_pos he] at hd
    exact ⟨1, by rw [h.one]; simpa using hd.symm⟩
  rw [if_neg he] at hd
  simp only [Option.bind_eq_bind, Option.bind_eq_some_iff] at hd
  obtain ⟨⟨m1, m2, n⟩, _, hd⟩ := hd
  simp only at hd
  by_cases hn : n = 0
  · rw [if_pos hn] at hd
    exact ⟨0, by rw [h.zero]; simpa using hd.symm⟩
  rw [if_neg hn] at hd
  simp only [Option.bind_eq_some_iff] at hd
  obtain ⟨t, _, a, _, b, _, e, _, c, _, hd⟩ := hd
  unfold flDiv at hd
  rw [if_neg (by norm_num)] at hd
  exact ⟨_, (Option.some.inj hd).symm⟩

theorem jaroWinkler_ok {fl : ℚ → ℚ} (h : FloatRounding fl) (s1 s2 : List Char)
    (hshort : s1.length ≤ 2 ^ 53) : ∃ d, jaroWinkler fl s1 s2 = some d ∧ 0 ≤ d ∧ d ≤ 1 := by
  obtain ⟨d, hd, h0, h1⟩ := jaroDistance_ok h s1 s2 hshort
  simp only [jaroWinkler, hd, Option.bind_eq_bind, Option.bind_some]
  split
  · refine ⟨_, rfl, ?_⟩
    have t0 : 0 ≤ fl (1 / 10) := h.nonneg (by norm_num)
    have t1 : fl (1 / 10) ≤ 1 / 8 := (h.mono _ _ (by norm_num)).trans h.eighth.le
    have p0 : (0 : ℚ) ≤ jaroPrefix s1 s2 := by positivity
    have p1 : (jaroPrefix s1 s2 : ℚ) ≤ 5 := by exact_mod_cast jaroPrefix_le s1 s2
    have q0 : 0 ≤ fl (fl (1 / 10) * jaroPrefix s1 s2) := h.nonneg (by positivity)
    have q1 : fl (fl (1 / 10) * jaroPrefix s1 s2) ≤ 1 := h.le_one (by nlinarith)
    obtain ⟨x, rfl⟩ := jaroDistance_fl h hd
    have hs : (5 : ℚ) / 8 ≤ fl (7 / 10) := by
      have e := h.exact 5 3 (by norm_num) (by norm_num)
      have := h.mono (5 / 8) (7 / 10) (by norm_num)
      norm_num at e this ⊢
      linarith
    have e : fl (1 - fl x) = 1 - fl x := by
      have := h.sterbenz 1 x (by rw [h.one]; linarith) (by rw [h.one]; linarith)
      rwa [h.one] at this
    rw [e]
    have r0 : 0 ≤ fl (fl (fl (1 / 10) * jaroPrefix s1 s2) * (1 - fl x)) :=
      h.nonneg (mul_nonneg q0 (by linarith))
    have r1 : fl (fl (fl (1 / 10) * jaroPrefix s1 s2) * (1 - fl x)) ≤ 1 - fl x := by
      have := h.mono (fl (fl (1 / 10) * jaroPrefix s1 s2) * (1 - fl x)) (1 - fl x) (by nlinarith)
      rwa [e] at this
    exact ⟨h.nonneg (by linarith), h.le_one (by linarith)⟩
  · exact ⟨d, rfl, h0, h1⟩

theorem jaroWinkler_self {fl : ℚ → ℚ} (h : FloatRounding fl) (s : List Char) :
    jaroWinkler fl s s = some 1 := by
  have hs : fl (7 / 10) ≤ 1 := h.le_one (by norm_num)
  simp only [jaroWinkler, jaroDistance, if_pos, Option.bind_eq_bind, Option.bind_some, sub_self,
    h.zero, mul_zero, add_zero, h.one, ite_self]

theorem jaroWinkler_fl {fl : ℚ → ℚ} (h : FloatRounding fl) {s1 s2 : List Char} {d : ℚ}
    (hd : jaroWinkler fl s1 s2 = some d) : ∃ x, d = fl x := by
  simp only [jaroWinkler, Option.bind_eq_bind, Option.bind_eq_some_iff] at hd
  obtain ⟨e, he, hd⟩ := hd
  by_cases hc : e > fl (7 / 10)
  · rw [if_pos hc] at hd
    exact ⟨_, (Option.some.inj hd).symm⟩
  · rw [if_neg hc] at hd
    cases hd
    exact jaroDistance_fl h he

theorem winklerKey_ok {fl : ℚ → ℚ} (h : FloatRounding fl) (word option : String)
    (hshort : word.length ≤ 2 ^ 53) :
    ∃ d, jaroWinkler fl word.toList option.toList = some d ∧ 0 ≤ d ∧ d ≤ 1 ∧
      winklerKey fl word option = some (fl (1 - d)) := by
  obtain ⟨d, hd, h0, h1⟩ := jaroWinkler_ok h word.toList option.toList (by rw [String.length_toList]; exact hshort)
  exact ⟨d, hd, h0, h1, by simp [winklerKey, hd]⟩

/-! ## The suggestion -/

/-- Specification: a symbol name of the rule grammar, `$` optional. -/
def IsSymbolName (s : List Char) : Prop :=
  ∃ (dollar : List Char) (c : Char) (cs : List Char), s = dollar ++ c :: cs ∧
    (dollar = [] ∨ dollar = ['$']) ∧ (c.isAlpha ∨ c = '_') ∧
    ∀ x ∈ cs, x.isAlphanum ∨ x = '_'

/-- Specification: the options `suggest_symbol` accepts: a symbol name, possibly followed by a newline
(Python's `$` in a regular expression also matches before a newline at the end). -/
def IsSymbolOption (s : List Char) : Prop :=
  IsSymbolName s ∨ ∃ t, IsSymbolName t ∧ s = t ++ ['\n']

theorem dropWhile_spec {p : Char → Bool} {cs r : List Char} (hr : ∀ c ∈ r.head?, p c = false) :
    cs.dropWhile p = r ↔ ∃ a, cs = a ++ r ∧ ∀ x ∈ a, p x = true := by
  constructor
  · intro h
    exact ⟨cs.takeWhile p, by rw [← h]; exact (List.takeWhile_append_dropWhile).symm,
      fun x hx => List.all_takeWhile (l := cs) (p := p) |> fun h => List.all_eq_true.1 h x hx⟩
  · rintro ⟨a, rfl, ha⟩
    rw [List.dropWhile_append_of_pos ha]
    cases r with
    | nil => rfl
    | cons c r => simp [List.dropWhile_cons, hr c (by simp)]

theorem matchesSymbol_iff (s : List Char) : matchesSymbol s = true ↔ IsSymbolOption s := by
  -- the part after an optional dollar sign
  have body : ∀ rest : List Char, matchesName rest = true ↔ ∃ (c : Char) (cs : List Char) (nl : List Char), rest = c :: cs ++ nl ∧
        (c.isAlpha ∨ c = '_') ∧ (∀ x ∈ cs, x.isAlphanum ∨ x = '_') ∧ (nl = [] ∨ nl = ['\n']) := by
    intro rest
    cases rest with
    | nil => simp [matchesName]
    | cons c cs =>
      simp only [matchesName, Bool.and_eq_true, Bool.or_eq_true, beq_iff_eq]
      rw [dropWhile_spec (r := []) (by simp), dropWhile_spec (r := ['\n']) (by simp; decide)]
      simp only [isNameStart, isNameChar, Bool.or_eq_true, beq_iff_eq]
      constructor
      · rintro ⟨h1, ⟨a, rfl, ha⟩ | ⟨a, rfl, ha⟩⟩
        · exact ⟨c, a, [], rfl, h1, ha, .inl rfl⟩
        · exact ⟨c, a, ['\n'], rfl, h1, ha, .inr rfl⟩
      · rintro ⟨c', cs', nl, he, h1, h2, rfl | rfl⟩
        · obtain ⟨rfl, rfl⟩ := by simpa using he
          exact ⟨h1, .inl ⟨_, by simp, h2⟩⟩
        · obtain ⟨rfl, rfl⟩ := by simpa using he
          exact ⟨h1, .inr ⟨_, rfl, h2⟩⟩
  have start : ∀ c : Char, (c.isAlpha ∨ c = '_') → c ≠ '$' := by
    rintro c hc rfl
    revert hc
    decide
  unfold matchesSymbol
  rw [body]
  constructor
  · rintro ⟨c, cs, nl, he, h1, h2, hnl⟩
    have : ∃ dollar, s = dollar ++ (c :: cs) ++ nl ∧ (dollar = [] ∨ dollar = ['$']) := by
      unfold dropDollar at he
      split at he
      · exact ⟨['$'], by simp [he], .inr rfl⟩
      · exact ⟨[], by simp [he], .inl rfl⟩
    obtain ⟨dollar, hs, hd⟩ := this
    have name : IsSymbolName (dollar ++ (c :: cs)) := ⟨dollar, c, cs, rfl, hd, h1, h2⟩
    rcases hnl with rfl | rfl
    · exact .inl (by rw [hs, List.append_nil]; exact name)
    · exact .inr ⟨_, name, hs⟩
  · have : ∀ t nl, IsSymbolName t → s = t ++ nl → (nl = [] ∨ nl = ['\n']) →
        ∃ (c : Char) (cs : List Char) (nl : List Char),
        dropDollar s = c :: cs ++ nl ∧ (c.isAlpha ∨ c = '_') ∧
        (∀ x ∈ cs, x.isAlphanum ∨ x = '_') ∧ (nl = [] ∨ nl = ['\n']) := by
      rintro t nl ⟨dollar, c, cs, rfl, hd, h1, h2⟩ hs hnl
      refine ⟨c, cs, nl, ?_, h1, h2, hnl⟩
      rcases hd with rfl | rfl
      · subst hs
        have := start c h1
        simp only [List.nil_append, List.cons_append]
        unfold dropDollar
        split
        · rename_i h; simp_all
        · rfl
      · subst hs
        rfl
    rintro (h | ⟨t, h, hs⟩)
    · exact this s [] h (by simp) (.inl rfl)
    · exact this t ['\n'] h hs (.inr rfl)

theorem mapM_some {α β : Type} {f : α → Option β} {g : α → β} (h : ∀ a, f a = some (g a)) :
    ∀ l : List α, l.mapM f = some (l.map g)
  | [] => rfl
  | a :: l => by simp [List.mapM_cons, h a, mapM_some h l]

/-- **C43** (the similarity): for every word (of at most `2 ^ 53` characters) and every option the
similarity is computed without failure, lies between 0 and 1, and is 1 for equal words; whatever the
rounding of floating point numbers. -/
theorem similarity_bounds {fl : ℚ → ℚ} (h : FloatRounding fl) (word option : String)
    (hshort : word.length ≤ 2 ^ 53) :
    ∃ d, jaroWinkler fl word.toList option.toList = some d ∧ 0 ≤ d ∧ d ≤ 1 ∧
      (word = option → d = 1) := by
  obtain ⟨d, hd, h0, h1, -⟩ := winklerKey_ok h word option hshort
  refine ⟨d, hd, h0, h1, ?_⟩
  rintro rfl
  rw [jaroWinkler_self h] at hd
  exact (Option.some.inj hd).symm

/-- **C43**: `suggest_symbol(word, options)` never fails.  It returns `None` exactly if no option is a
symbol name (a newline at the end is tolerated); otherwise it returns one of the options that are, such
that no other such option has a smaller `1 - similarity`. -/
theorem suggestion_valid {fl : ℚ → ℚ} (h : FloatRounding fl) (word : String) (options : List String)
    (hshort : word.length ≤ 2 ^ 53) :
    ∃ r, suggestSymbol fl word options = some r ∧
      (r = none ↔ ∀ o ∈ options, ¬ IsSymbolOption o.toList) ∧
      ∀ o, r = some o → o ∈ options ∧ IsSymbolOption o.toList ∧
        ∀ o' ∈ options, IsSymbolOption o'.toList → ∀ d d',
          jaroWinkler fl word.toList o.toList = some d →
          jaroWinkler fl word.toList o'.toList = some d' → fl (1 - d) ≤ fl (1 - d') := by
  have hk : ∀ o : String, winklerKey fl word o =
      some (fl (1 - (jaroWinkler fl word.toList o.toList).getD 0)) := by
    intro o
    obtain ⟨d, hd, -, -, hk⟩ := winklerKey_ok h word o hshort
    rw [hk, hd, Option.getD_some]
  set valid := options.filter fun o => matchesSymbol o.toList with hv
  have hmem : ∀ o, o ∈ valid ↔ o ∈ options ∧ IsSymbolOption o.toList := by
    intro o
    rw [hv, List.mem_filter, matchesSymbol_iff]
  set key : String → ℚ := fun o => fl (1 - (jaroWinkler fl word.toList o.toList).getD 0) with hkey
  set keyed := valid.map fun o => (o, key o) with hkeyed
  set sorted := keyed.mergeSort fun a b => a.2 ≤ b.2 with hsorted
  have hperm : sorted.Perm keyed := List.mergeSort_perm _ _
  have hpair : sorted.Pairwise fun a b => a.2 ≤ b.2 := by
    have := List.pairwise_mergeSort (le := fun a b : String × ℚ => decide (a.2 ≤ b.2))
      (by simp only [decide_eq_true_eq]; exact fun a b c => le_trans)
      (by simp only [Bool.or_eq_true, decide_eq_true_eq]; exact fun a b => le_total _ _) keyed
    simpa using this
  refine ⟨sorted.head?.map (·.1), ?_, ?_, ?_⟩
  · unfold suggestSymbol suggest
    rw [← hv, mapM_some (g := fun o => (o, key o)) (by intro o; rw [hk]; rfl)]
    rfl
  · rw [Option.map_eq_none_iff, List.head?_eq_none_iff, ← List.length_eq_zero_iff, hperm.length_eq,
      List.length_eq_zero_iff, hkeyed, List.map_eq_nil_iff, List.eq_nil_iff_forall_not_mem]
    simp only [hmem, not_and]
  · intro o ho
    obtain ⟨⟨o1, q⟩, h1, rfl⟩ := Option.map_eq_some_iff.1 ho
    cases hsl : sorted with
    | nil => rw [hsl] at h1; simp at h1
    | cons x tl =>
      rw [hsl] at h1 hpair
      simp only [List.head?_cons, Option.some.injEq] at h1
      subst h1
      have hx : (o1, q) ∈ keyed := hperm.mem_iff.1 (by rw [hsl]; simp)
      rw [hkeyed, List.mem_map] at hx
      obtain ⟨o2, ho2, he⟩ := hx
      obtain ⟨rfl, rfl⟩ := Prod.mk.inj he
      refine ⟨((hmem _).1 ho2).1, ((hmem _).1 ho2).2, fun o' ho' hs' d d' hd hd' => ?_⟩
      have hm' : (o', key o') ∈ sorted :=
        hperm.mem_iff.2 (List.mem_map.2 ⟨o', (hmem _).2 ⟨ho', hs'⟩, rfl⟩)
      have : key o2 ≤ key o' := by
        rw [hsl, List.mem_cons] at hm'
        rcases hm' with hm' | hm'
        · rw [(Prod.mk.inj hm').1]
        · exact List.rel_of_pairwise_cons hpair hm'
      simpa [hkey, hd, hd'] using this

/-- a misspelled word that is not misspelled: if the word itself is among the options then the
suggestion has similarity 1 -/
theorem suggestion_exact {fl : ℚ → ℚ} (h : FloatRounding fl) (word : String) (options : List String)
    (hshort : word.length ≤ 2 ^ 53) (hmem : word ∈ options) (hs : IsSymbolName word.toList) :
    ∃ o, suggestSymbol fl word options = some (some o) ∧
      jaroWinkler fl word.toList o.toList = some 1 := by
  obtain ⟨r, hr, hnone, hsome⟩ := suggestion_valid h word options hshort
  cases r with
  | none => exact absurd (.inl hs) (hnone.1 rfl word hmem)
  | some o =>
    obtain ⟨d, hd, h0, h1, -⟩ := winklerKey_ok h word o hshort
    have := (hsome o rfl).2.2 word hmem (.inl hs) d 1 hd (jaroWinkler_self h _)
    rw [sub_self, h.zero] at this
    refine ⟨o, hr, ?_⟩
    rw [hd]
    obtain ⟨x, rfl⟩ := jaroWinkler_fl h hd
    by_cases hx : (1 : ℚ) / 2 ≤ fl x
    · have e : fl (1 - fl x) = 1 - fl x := by
        have := h.sterbenz 1 x (by rw [h.one]; linarith) (by rw [h.one]; linarith)
        rwa [h.one] at this
      rw [e] at this
      rw [show fl x = 1 by linarith]
    · have e : fl (1 / 2) = 1 / 2 := by
        have := h.exact 1 1 (by norm_num) (by norm_num)
        norm_num at this ⊢; exact this
      have := h.mono (1 / 2) (1 - fl x) (by linarith)
      linarith

/-! Non-vacuity: the hypotheses hold of exact arithmetic, and the model computes. -/

example : suggestSymbol id "lenght" ["width", "length", "1st", "x y"] = some (some "length") := by
  have h : (["width", "length", "1st", "x y"].filter fun o => matchesSymbol o.toList) =
    ["width", "length"] := by decide +kernel
  have k : (["width", "length"].mapM fun o => (winklerKey id "lenght" o).map fun k => (o, k)) =
    some [("width", 53 / 90), ("length", 1 / 30)] := by decide +kernel
  simp only [suggestSymbol, h, suggest, k, Option.bind_eq_bind, Option.bind_some]
  rw [List.mergeSort]
  norm_num [List.merge, List.MergeSort.Internal.splitInTwo]

example : suggestSymbol id "lenght" ["1st", "x y", ""] = some none := by decide +kernel

example : jaroWinkler id "martha".toList "marhta".toList = some (173 / 180) := by decide +kernel

/-- an option with a newline at the end is accepted although it is not a symbol name -/
theorem suggestion_newline : suggestSymbol id "foo" ["foo\n"] = some (some "foo\n") ∧
    ¬ IsSymbolName "foo\n".toList := by
  refine ⟨?_, ?_⟩
  · have h : (["foo\n"].filter fun o => matchesSymbol o.toList) = ["foo\n"] := by decide +kernel
    have k : (["foo\n"].mapM fun o => (winklerKey id "foo" o).map fun k => (o, k)) =
      some [("foo\n", 7 / 120)] := by decide +kernel
    simp only [suggestSymbol, h, suggest, k, Option.bind_eq_bind, Option.bind_some]
    rw [List.mergeSort]
    rfl
  · rintro ⟨dollar, c, cs, he, hd, h1, h2⟩
    have hl : "foo\n".toList = ['f', 'o', 'o', '\n'] := by decide +kernel
    rw [hl] at he
    rcases hd with rfl | rfl
    · obtain ⟨rfl, rfl⟩ := by simpa using he
      have := h2 '\n' (by simp)
      revert this
      decide
    · simp at he

end RE
