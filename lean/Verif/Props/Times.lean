import Verif.Props.Seqs

/-!
# C26, C37: datetimes and timedeltas
-/

namespace RE

set_option linter.unusedSimpArgs false

/-! ## C26 -/

/-- Specification: what `-v` evaluates to (or raises). -/
def negResult (env : Env) (dc : DecCtx) (v : Value) : Except Err Value :=
  (eval env dc .none (.neg (.lit v .undefined)) St.init).1

theorem eval_neg_values (env : Env) (dc : DecCtx) (thing : Value) (e : Expr) (s s1 : St) (v : Value)
    (h : eval env dc thing e s = (.ok v, s1)) :
    (eval env dc thing (.neg e) s).1 = negResult env dc v := by
  unfold negResult
  simp only [eval, M.bind_apply, h, M.pure_apply, M.lift_apply]

/-- Specification: the datetimes and timedeltas that exist in Python. -/
def Value.InRange : Value → Prop
  | .datetime us _ => 0 ≤ us ∧ us < 3652059 * 86400000000
  | .timedelta us => -(999999999 * 86400000000) ≤ us ∧ us < 1000000000 * 86400000000
  | _ => True

theorem datetimeInRange_iff (us : Int) (tz : Option Nat) :
    datetimeInRange us = true ↔ (Value.datetime us tz).InRange := by
  unfold datetimeInRange
  rw [Bool.and_eq_true, decide_eq_true_iff, decide_eq_true_iff]
  exact Iff.rfl

theorem timedeltaInRange_iff (us : Int) :
    timedeltaInRange us = true ↔ (Value.timedelta us).InRange := by
  unfold timedeltaInRange
  rw [Bool.and_eq_true, decide_eq_true_iff, decide_eq_true_iff]
  exact Iff.rfl

theorem mkDatetime_ok_iff {us : Int} {tz : Option Nat} {v : Value} :
    mkDatetime us tz = .ok v ↔ v = .datetime us tz ∧ (Value.datetime us tz).InRange := by
  rw [← datetimeInRange_iff]
  unfold mkDatetime
  by_cases h : datetimeInRange us = true
  · simp [h, eq_comm]
  · simp [h]

theorem mkTimedelta_ok_iff {us : Int} {v : Value} :
    mkTimedelta us = .ok v ↔ v = .timedelta us ∧ (Value.timedelta us).InRange := by
  rw [← timedeltaInRange_iff]
  unfold mkTimedelta
  by_cases h : timedeltaInRange us = true
  · simp [h, eq_comm]
  · simp [h]

theorem mkDatetime_eq {us : Int} {tz : Option Nat} (h : (Value.datetime us tz).InRange) :
    mkDatetime us tz = .ok (.datetime us tz) := mkDatetime_ok_iff.mpr ⟨rfl, h⟩

theorem mkTimedelta_eq {us : Int} (h : (Value.timedelta us).InRange) :
    mkTimedelta us = .ok (.timedelta us) := mkTimedelta_ok_iff.mpr ⟨rfl, h⟩

theorem add_dt_td (env : Env) (dc : DecCtx) (x y : Int) (tz : Option Nat) :
    binResult env dc .add (.datetime x tz) (.timedelta y) = mkDatetime (x + y) tz := by
  rw [binResult_add]; rfl
theorem add_td_dt (env : Env) (dc : DecCtx) (x y : Int) (tz : Option Nat) :
    binResult env dc .add (.timedelta y) (.datetime x tz) = mkDatetime (x + y) tz := by
  rw [binResult_add]; rfl
theorem add_td_td (env : Env) (dc : DecCtx) (x y : Int) :
    binResult env dc .add (.timedelta x) (.timedelta y) = mkTimedelta (x + y) := by
  rw [binResult_add]; rfl
theorem sub_dt_td (env : Env) (dc : DecCtx) (x y : Int) (tz : Option Nat) :
    binResult env dc .sub (.datetime x tz) (.timedelta y) = mkDatetime (x - y) tz := by
  rw [binResult_sub]; rfl
theorem sub_td_td (env : Env) (dc : DecCtx) (x y : Int) :
    binResult env dc .sub (.timedelta x) (.timedelta y) = mkTimedelta (x - y) := by
  rw [binResult_sub]; rfl
theorem sub_dt_dt (env : Env) (dc : DecCtx) (x y : Int) (s t : Nat) :
    binResult env dc .sub (.datetime x (some s)) (.datetime y (some t)) =
      if s = t then mkTimedelta (x - y)
      else mkTimedelta (utcOf env.utcoffset x s - utcOf env.utcoffset y t) := by
  rw [binResult_sub]; rfl
theorem neg_td (env : Env) (dc : DecCtx) (x : Int) :
    negResult env dc (.timedelta x) = mkTimedelta (-x) := by
  unfold negResult
  simp only [eval, M.bind_apply, M.pure_apply, M.lift_apply, opNeg, Bool.or_true, if_true, pyNeg]

/-- **C26**: adding a timedelta to a datetime gives a datetime of the same zone that much later on the
wall clock, and taking it off again gives the datetime back. -/
theorem datetime_add_sub (env : Env) (dc : DecCtx) (x y : Int) (tz : Option Nat)
    (hd : (Value.datetime x tz).InRange) (v : Value)
    (h : binResult env dc .add (.datetime x tz) (.timedelta y) = .ok v) :
    v = .datetime (x + y) tz ∧ binResult env dc .sub v (.timedelta y) = .ok (.datetime x tz) := by
  rw [add_dt_td, mkDatetime_ok_iff] at h
  obtain ⟨rfl, -⟩ := h
  refine ⟨rfl, ?_⟩
  rw [sub_dt_td, Int.add_sub_cancel]
  exact mkDatetime_eq hd

/-- **C26**: the other way round. -/
theorem datetime_sub_add (env : Env) (dc : DecCtx) (x y : Int) (tz : Option Nat)
    (hd : (Value.datetime x tz).InRange) (v : Value)
    (h : binResult env dc .sub (.datetime x tz) (.timedelta y) = .ok v) :
    v = .datetime (x - y) tz ∧ binResult env dc .add v (.timedelta y) = .ok (.datetime x tz) := by
  rw [sub_dt_td, mkDatetime_ok_iff] at h
  obtain ⟨rfl, -⟩ := h
  refine ⟨rfl, ?_⟩
  rw [add_dt_td, Int.sub_add_cancel]
  exact mkDatetime_eq hd

/-- **C26**: `d + t` and `t + d` are the same. -/
theorem datetime_add_comm (env : Env) (dc : DecCtx) (x y : Int) (tz : Option Nat) :
    binResult env dc .add (.datetime x tz) (.timedelta y) =
      binResult env dc .add (.timedelta y) (.datetime x tz) := by
  rw [add_dt_td, add_td_dt]

/-- **C26**: `t1 + t2` and `t2 + t1` are the same, and `(t1 + t2) - t2` is `t1`. -/
theorem timedelta_add (env : Env) (dc : DecCtx) (x y : Int) (hx : (Value.timedelta x).InRange) :
    binResult env dc .add (.timedelta x) (.timedelta y) = binResult env dc .add (.timedelta y) (.timedelta x) ∧
    ∀ v, binResult env dc .add (.timedelta x) (.timedelta y) = .ok v →
      v = .timedelta (x + y) ∧ binResult env dc .sub v (.timedelta y) = .ok (.timedelta x) := by
  refine ⟨by rw [add_td_td, add_td_td, Int.add_comm], fun v h => ?_⟩
  rw [add_td_td, mkTimedelta_ok_iff] at h
  obtain ⟨rfl, -⟩ := h
  refine ⟨rfl, ?_⟩
  rw [sub_td_td, Int.add_sub_cancel]
  exact mkTimedelta_eq hx

/-- **C26**: `-(-t)` is `t`; and `t + (-t)` is zero. -/
theorem timedelta_neg (env : Env) (dc : DecCtx) (x : Int) (hx : (Value.timedelta x).InRange) (v : Value)
    (h : negResult env dc (.timedelta x) = .ok v) :
    negResult env dc v = .ok (.timedelta x) ∧
      binResult env dc .add (.timedelta x) v = .ok (.timedelta 0) := by
  rw [neg_td, mkTimedelta_ok_iff] at h
  obtain ⟨rfl, -⟩ := h
  rw [neg_td, neg_neg, add_td_td, Int.add_right_neg]
  refine ⟨mkTimedelta_eq hx, mkTimedelta_eq ?_⟩
  simp [Value.InRange]

/-- **C26**: the difference of two datetimes of one zone, added to the second, is the first. -/
theorem datetime_diff (env : Env) (dc : DecCtx) (x y : Int) (tz : Nat)
    (hx : (Value.datetime x (some tz)).InRange) (v : Value)
    (h : binResult env dc .sub (.datetime x (some tz)) (.datetime y (some tz)) = .ok v) :
    v = .timedelta (x - y) ∧
      binResult env dc .add v (.datetime y (some tz)) = .ok (.datetime x (some tz)) := by
  rw [sub_dt_dt, if_pos rfl, mkTimedelta_ok_iff] at h
  obtain ⟨rfl, -⟩ := h
  refine ⟨rfl, ?_⟩
  rw [add_td_dt, show y + (x - y) = x by omega]
  exact mkDatetime_eq hx

/-- Specification: the UTC offset of a zone is the same at two wall clock times, and neither is in a
daylight saving gap or fold. -/
def SameOffset (off : TzDb) (tz : Nat) (x y : Int) : Prop :=
  (off tz x).us = (off tz y).us ∧ (off tz x).foldDependent = false ∧ (off tz y).foldDependent = false

/-- **C26**: the difference of datetimes of different zones is the time between the two instants; added
to the second datetime it gives a datetime of that zone which is equal to the first one, if the offset
of the second zone is the same at both times. -/
theorem datetime_diff_zones (env : Env) (dc : DecCtx) (x y : Int) (s t : Nat) (hst : s ≠ t)
    (v w : Value) (hsx : (env.utcoffset s x).foldDependent = false)
    (h : binResult env dc .sub (.datetime x (some s)) (.datetime y (some t)) = .ok v)
    (h2 : binResult env dc .add v (.datetime y (some t)) = .ok w) :
    ∃ z, v = .timedelta (utcOf env.utcoffset x s - utcOf env.utcoffset y t) ∧ w = .datetime z (some t) ∧
      (SameOffset env.utcoffset t y z →
        binResult env dc .eq w (.datetime x (some s)) = .ok (.bool true)) := by
  rw [sub_dt_dt, if_neg hst, mkTimedelta_ok_iff] at h
  obtain ⟨rfl, -⟩ := h
  rw [add_td_dt, mkDatetime_ok_iff] at h2
  obtain ⟨rfl, -⟩ := h2
  refine ⟨_, rfl, rfl, fun ⟨h3, h4, h5⟩ => ?_⟩
  rw [binResult_eq]
  have hts : t ≠ s := fun h => hst h.symm
  simp only [opEq, Value.pyType, if_true, pyEq, datetimeEq, hts, if_false, h5, hsx]
  simp [utcOf] at *
  omega

/-- A zone with a daylight saving change, for the next theorem: two hours ahead of UTC from time zero
on, one hour before. -/
def dstEnv : Env :=
  { sampleEnv with utcoffset := fun z us => ⟨if z = 0 then 0 else if us < 10 * dayUs then 3600000000 else 7200000000, false⟩ }

/-- Without that condition it is false: the arithmetic is on the wall clock. -/
theorem datetime_diff_zones_false :
    ∃ v w, binResult dstEnv .default .sub (.datetime (20 * dayUs) (some 0)) (.datetime (5 * dayUs) (some 1)) = .ok v ∧
      binResult dstEnv .default .add v (.datetime (5 * dayUs) (some 1)) = .ok w ∧
      binResult dstEnv .default .eq w (.datetime (20 * dayUs) (some 0)) = .ok (.bool false) := by
  refine ⟨.timedelta 1299600000000, .datetime 1731600000000 (some 1), by decide +kernel, by decide +kernel,
    by decide +kernel⟩

/-- **C26**: the types of the results. -/
theorem datetime_arithmetic_types (env : Env) (dc : DecCtx) (a b v : Value) :
    (∀ x y tz, a = .datetime x tz → b = .timedelta y →
      binResult env dc .add a b = .ok v ∨ binResult env dc .add b a = .ok v ∨ binResult env dc .sub a b = .ok v →
      fromValue v = .ok .datetime) ∧
    (∀ x y, a = .timedelta x → b = .timedelta y →
      binResult env dc .add a b = .ok v ∨ binResult env dc .sub a b = .ok v ∨ negResult env dc a = .ok v →
      fromValue v = .ok .timedelta) ∧
    (∀ x y s t, a = .datetime x (some s) → b = .datetime y (some t) → binResult env dc .sub a b = .ok v →
      fromValue v = .ok .timedelta) := by
  refine ⟨?_, ?_, ?_⟩
  · rintro x y tz rfl rfl h
    rw [add_dt_td, add_td_dt, sub_dt_td] at h
    simp only [mkDatetime_ok_iff] at h
    rcases h with ⟨rfl, -⟩ | ⟨rfl, -⟩ | ⟨rfl, -⟩ <;> rfl
  · rintro x y rfl rfl h
    rw [add_td_td, sub_td_td, neg_td] at h
    simp only [mkTimedelta_ok_iff] at h
    rcases h with ⟨rfl, -⟩ | ⟨rfl, -⟩ | ⟨rfl, -⟩ <;> rfl
  · rintro x y s t rfl rfl h
    rw [sub_dt_dt] at h
    split at h <;> (rw [mkTimedelta_ok_iff] at h; obtain ⟨rfl, -⟩ := h; rfl)

/-- Witness for C26: the hypotheses are met by concrete times. -/
theorem datetime_arithmetic_witness :
    (Value.datetime 63713433600000000 (some 0)).InRange ∧
    binResult sampleEnv .default .add (.datetime 63713433600000000 (some 0)) (.timedelta 5) =
      .ok (.datetime 63713433600000005 (some 0)) ∧
    negResult sampleEnv .default (.timedelta 5) = .ok (.timedelta (-5)) ∧
    SameOffset sampleEnv.utcoffset 1 0 5 := by
  refine ⟨by simp [Value.InRange], by decide +kernel, by decide +kernel, ?_⟩
  simp [SameOffset, sampleEnv]

/-! ## C37 -/

/-- Specification: what `v.name` evaluates to (or raises) for a value that is no null. -/
def attrResult (env : Env) (dc : DecCtx) (v : Value) (name : String) : Except Err Value :=
  (eval env dc .none (.getAttr (.lit v .undefined) name false) St.init).1

theorem attr_of_resolve (env : Env) (dc : DecCtx) (v w : Value) (name : String)
    (h : resolveAttr env v name = .ok w) : attrResult env dc v name = .ok (newValue env w) := by
  unfold attrResult
  simp only [eval, M.bind_apply, M.pure_apply, Bool.false_eq_true, and_false, if_false, evalGetAttr, h]

/-- Specification: `v.name` is the whole number `z`. -/
def AttrIs (env : Env) (dc : DecCtx) (v : Value) (name : String) (z : Int) : Prop :=
  attrResult env dc v name = .ok (.dec (.ofInt z))

theorem attrIs_of (env : Env) (dc : DecCtx) (v : Value) (name : String) (z : Int)
    (h : resolveAttr env v name = .ok (.dec (.ofInt z))) : AttrIs env dc v name z := by
  unfold AttrIs
  rw [attr_of_resolve env dc v _ name h]
  rfl

/-- **C37**: `days`, `seconds` and `microseconds` of a timedelta recompose it, with at most a day in the
seconds and a second in the microseconds. -/
theorem timedelta_attributes (env : Env) (dc : DecCtx) (us : Int) :
    ∃ days seconds microseconds : Int,
      AttrIs env dc (.timedelta us) "days" days ∧ AttrIs env dc (.timedelta us) "seconds" seconds ∧
      AttrIs env dc (.timedelta us) "microseconds" microseconds ∧
      us = days * (86400 * 1000000) + seconds * 1000000 + microseconds ∧
      0 ≤ seconds ∧ seconds < 86400 ∧ 0 ≤ microseconds ∧ microseconds < 1000000 := by
  refine ⟨us / dayUs, us % dayUs / 1000000, us % 1000000, ?_, ?_, ?_, ?_⟩
  · refine attrIs_of env dc _ _ _ ?_; simp [resolveAttr, fromValue, attrKind, attrTypeFn, attrValue, except_ok_bind, coerceVerify, coerce, DataType.compat, newValue]
  · refine attrIs_of env dc _ _ _ ?_; simp [resolveAttr, fromValue, attrKind, attrTypeFn, attrValue, except_ok_bind, coerceVerify, coerce, DataType.compat, newValue]
  · refine attrIs_of env dc _ _ _ ?_; simp [resolveAttr, fromValue, attrKind, attrTypeFn, attrValue, except_ok_bind, coerceVerify, coerce, DataType.compat, newValue]
  · unfold dayUs; omega

/-- **C37**: `hour`, `minute`, `second` and `microsecond` of a datetime recompose the time of its day,
and `date` is the midnight before it, in the same zone. -/
theorem datetime_attributes (env : Env) (dc : DecCtx) (us : Int) (tz : Nat) :
    ∃ hour minute second microsecond midnight : Int,
      AttrIs env dc (.datetime us (some tz)) "hour" hour ∧ AttrIs env dc (.datetime us (some tz)) "minute" minute ∧
      AttrIs env dc (.datetime us (some tz)) "second" second ∧
      AttrIs env dc (.datetime us (some tz)) "microsecond" microsecond ∧
      attrResult env dc (.datetime us (some tz)) "date" = .ok (.datetime midnight (some tz)) ∧
      us = midnight + ((hour * 60 + minute) * 60 + second) * 1000000 + microsecond ∧
      (86400 * 1000000) ∣ midnight ∧
      0 ≤ hour ∧ hour < 24 ∧ 0 ≤ minute ∧ minute < 60 ∧ 0 ≤ second ∧ second < 60 ∧
      0 ≤ microsecond ∧ microsecond < 1000000 := by
  refine ⟨us % dayUs / 3600000000, us % 3600000000 / 60000000, us % 60000000 / 1000000, us % 1000000,
    us - us % dayUs, ?_, ?_, ?_, ?_, ?_, ?_⟩
  · refine attrIs_of env dc _ _ _ ?_; simp [resolveAttr, fromValue, attrKind, attrTypeFn, attrValue, except_ok_bind, coerceVerify, coerce, DataType.compat, newValue]
  · refine attrIs_of env dc _ _ _ ?_; simp [resolveAttr, fromValue, attrKind, attrTypeFn, attrValue, except_ok_bind, coerceVerify, coerce, DataType.compat, newValue]
  · refine attrIs_of env dc _ _ _ ?_; simp [resolveAttr, fromValue, attrKind, attrTypeFn, attrValue, except_ok_bind, coerceVerify, coerce, DataType.compat, newValue]
  · refine attrIs_of env dc _ _ _ ?_; simp [resolveAttr, fromValue, attrKind, attrTypeFn, attrValue, except_ok_bind, coerceVerify, coerce, DataType.compat, newValue]
  · refine (attr_of_resolve env dc _ (.datetime (us - us % dayUs) (some tz)) _ ?_).trans ?_
    · simp [resolveAttr, fromValue, attrKind, attrTypeFn, attrValue, except_ok_bind, coerceVerify, coerce, DataType.compat, newValue]
    · rfl
  · unfold dayUs; omega

/-- Specification: is the year a leap year of the Gregorian calendar? -/
def leapYear (y : Int) : Prop := 4 ∣ y ∧ (¬ 100 ∣ y ∨ 400 ∣ y)

instance (y : Int) : Decidable (leapYear y) := by unfold leapYear; infer_instance

/-- Specification: the length of a month. -/
def monthLength (y : Int) (m : Int) : Int :=
  if m = 2 then (if leapYear y then 29 else 28)
  else if m = 4 ∨ m = 6 ∨ m = 9 ∨ m = 11 then 30 else 31

/-- Specification: days in the months of year `y` before month `m`. -/
def daysBefore (y : Int) (m : Nat) : Int :=
  ((List.range m).map fun j => if j = 0 then 0 else monthLength y j).sum

/-- Specification: the number of days from 0001-01-01 to the first day of the year. -/
def daysBeforeYear (y : Int) : Int := 365 * (y - 1) + (y - 1) / 4 - (y - 1) / 100 + (y - 1) / 400

/-- `daysBeforeYear` is what it says: a year has 365 days, a leap year 366. -/
theorem daysBeforeYear_succ (y : Int) :
    daysBeforeYear 1 = 0 ∧ daysBeforeYear (y + 1) = daysBeforeYear y + (if leapYear y then 366 else 365) := by
  refine ⟨rfl, ?_⟩
  by_cases h : leapYear y
  · rw [if_pos h]; unfold leapYear at h; unfold daysBeforeYear; omega
  · rw [if_neg h]; unfold leapYear at h; unfold daysBeforeYear; omega

/-- `daysBefore` is a running sum of month lengths. -/
theorem daysBefore_one (y : Int) : daysBefore y 1 = 0 := by simp [daysBefore]

theorem daysBefore_succ (y : Int) (m : Nat) (hm : m ≠ 0) :
    daysBefore y (m + 1) = daysBefore y m + monthLength y m := by
  unfold daysBefore
  rw [List.range_succ]
  simp [hm]

theorem daysBefore_table (y : Int) (m : Nat) (h1 : 1 ≤ m) (h2 : m ≤ 12) :
    daysBefore y m = daysBeforeMonth m + (if m > 2 ∧ leapYear y then 1 else 0) := by
  have : m = 1 ∨ m = 2 ∨ m = 3 ∨ m = 4 ∨ m = 5 ∨ m = 6 ∨ m = 7 ∨ m = 8 ∨ m = 9 ∨ m = 10 ∨ m = 11 ∨ m = 12 := by
    omega
  by_cases hl : leapYear y <;>
    rcases this with rfl | rfl | rfl | rfl | rfl | rfl | rfl | rfl | rfl | rfl | rfl | rfl <;>
    simp [daysBefore, List.range_succ, monthLength, daysBeforeMonth, hl]

theorem year_cells (a b c e : Int) (hb : 0 ≤ b ∧ b ≤ 3) (hc : 0 ≤ c ∧ c ≤ 24) (he : 0 ≤ e ∧ e ≤ 3) :
    (leapYear (a * 400 + 1 + b * 100 + c * 4 + e) ↔ e = 3 ∧ (c ≠ 24 ∨ b = 3)) ∧
    daysBeforeYear (a * 400 + 1 + b * 100 + c * 4 + e) = a * 146097 + b * 36524 + c * 1461 + e * 365 := by
  constructor
  · unfold leapYear; omega
  · unfold daysBeforeYear; omega

theorem month_cells (y r : Int) (leap : Bool) (hl : leap = true ↔ leapYear y) (h0 : 0 ≤ r)
    (h1 : r < 365) (m : Nat) (d : Int)
    (h : (let month := ((r + 50) / 32).toNat
          let preceding := daysBeforeMonth month + (if month > 2 && leap then 1 else 0)
          if r < preceding then
            let month := month - 1
            let preceding := preceding - (daysInMonth month + (if month = 2 ∧ leap then 1 else 0))
            (month, r - preceding + 1)
          else (month, r - preceding + 1)) = (m, d)) :
    1 ≤ m ∧ m ≤ 12 ∧ 1 ≤ d ∧ d ≤ monthLength y m ∧ r = daysBefore y m + (d - 1) := by
  have hm : 1 ≤ ((r + 50) / 32).toNat ∧ ((r + 50) / 32).toNat ≤ 12 := by omega
  have hr : 32 * (((r + 50) / 32).toNat : Int) ≤ r + 50 ∧ r + 50 < 32 * (((r + 50) / 32).toNat : Int) + 32 := by
    omega
  generalize ((r + 50) / 32).toNat = k at h hm hr
  have : k = 1 ∨ k = 2 ∨ k = 3 ∨ k = 4 ∨ k = 5 ∨ k = 6 ∨ k = 7 ∨ k = 8 ∨ k = 9 ∨ k = 10 ∨ k = 11 ∨ k = 12 := by
    omega
  have key : ∀ m, 1 ≤ m → m ≤ 12 → daysBefore y m = daysBeforeMonth m + (if m > 2 ∧ leapYear y then 1 else 0) :=
    daysBefore_table y
  cases leap
  · have hl : ¬ leapYear y := by simpa using hl
    rcases this with rfl | rfl | rfl | rfl | rfl | rfl | rfl | rfl | rfl | rfl | rfl | rfl <;>
      simp [daysBeforeMonth, daysInMonth] at h <;> split at h <;>
      simp only [Prod.mk.injEq] at h <;> obtain ⟨rfl, rfl⟩ := h <;>
      simp [monthLength, hl, daysBefore_table, daysBeforeMonth] <;> omega
  · have hl : leapYear y := by simpa using hl
    rcases this with rfl | rfl | rfl | rfl | rfl | rfl | rfl | rfl | rfl | rfl | rfl | rfl <;>
      simp [daysBeforeMonth, daysInMonth] at h <;> split at h <;>
      simp only [Prod.mk.injEq] at h <;> obtain ⟨rfl, rfl⟩ := h <;>
      simp [monthLength, hl, daysBefore_table, daysBeforeMonth] <;> omega

theorem ymd_spec (n : Int) (y : Int) (m : Nat) (d : Int) (h : ymdOfDay n = (y, m, d)) :
    1 ≤ m ∧ m ≤ 12 ∧ 1 ≤ d ∧ d ≤ monthLength y m ∧
      n = daysBeforeYear y + daysBefore y m + (d - 1) := by
  unfold ymdOfDay at h
  dsimp only at h
  have e1 : n = n / 146097 * 146097 + n % 146097 := by omega
  have l1 : 0 ≤ n % 146097 ∧ n % 146097 < 146097 := by omega
  generalize n / 146097 = a at h e1
  generalize n % 146097 = n1 at h e1 l1
  have e2 : n1 = n1 / 36524 * 36524 + n1 % 36524 := by omega
  have l2 : 0 ≤ n1 % 36524 ∧ n1 % 36524 < 36524 ∧ 0 ≤ n1 / 36524 ∧ n1 / 36524 ≤ 4 := by omega
  have k2 : n1 / 36524 = 4 → n1 % 36524 = 0 := by omega
  generalize n1 / 36524 = b at h e2 l2 k2
  generalize n1 % 36524 = n2 at h e2 l2 k2
  have e3 : n2 = n2 / 1461 * 1461 + n2 % 1461 := by omega
  have l3 : 0 ≤ n2 % 1461 ∧ n2 % 1461 < 1461 ∧ 0 ≤ n2 / 1461 ∧ n2 / 1461 ≤ 24 := by omega
  generalize n2 / 1461 = c at h e3 l3
  generalize n2 % 1461 = n3 at h e3 l3
  have e4 : n3 = n3 / 365 * 365 + n3 % 365 := by omega
  have l4 : 0 ≤ n3 % 365 ∧ n3 % 365 < 365 ∧ 0 ≤ n3 / 365 ∧ n3 / 365 ≤ 4 := by omega
  have k4 : n3 / 365 = 4 → n3 % 365 = 0 := by omega
  generalize n3 / 365 = e at h e4 l4 k4
  generalize n3 % 365 = r at h e4 l4 k4
  by_cases h4 : e = 4 ∨ b = 4
  · simp only [h4, if_true, Prod.mk.injEq] at h
    obtain ⟨rfl, rfl, rfl⟩ := h
    rcases h4 with rfl | rfl
    · have hb : b ≤ 3 := by omega
      obtain ⟨q1, q2⟩ := year_cells a b c 3 (by omega) (by omega) (by omega)
      have hc : c ≠ 24 ∨ b = 3 := by omega
      have hy : a * 400 + 1 + b * 100 + c * 4 + 4 - 1 = a * 400 + 1 + b * 100 + c * 4 + 3 := by omega
      rw [hy, daysBefore_table _ _ (by omega) (by omega), q2]
      simp [q1.2 ⟨rfl, hc⟩, daysBeforeMonth, monthLength]
      omega
    · have hc : c = 0 ∧ e = 0 := by omega
      obtain ⟨rfl, rfl⟩ := hc
      obtain ⟨q1, q2⟩ := year_cells a 3 24 3 (by omega) (by omega) (by omega)
      have hy : a * 400 + 1 + 4 * 100 + 0 * 4 + 0 - 1 = a * 400 + 1 + 3 * 100 + 24 * 4 + 3 := by omega
      rw [hy, daysBefore_table _ _ (by omega) (by omega), q2]
      rw [if_pos ⟨by omega, q1.2 ⟨rfl, .inr rfl⟩⟩]
      simp only [daysBeforeMonth, monthLength]
      omega
  · simp only [h4, if_false] at h
    obtain ⟨q1, q2⟩ := year_cells a b c e (by omega) (by omega) (by omega)
    rw [← apply_ite (Prod.mk _), Prod.mk.injEq] at h
    obtain ⟨hy, h⟩ := h
    replace hy := hy.symm
    have := month_cells y r (decide (e = 3) && (decide (c ≠ 24) || decide (b = 3)))
      (by rw [hy, q1]; simp) (by omega) (by omega) m d h
    subst hy
    rw [q2]
    obtain ⟨t1, t2, t3, t4, t5⟩ := this
    exact ⟨t1, t2, t3, t4, by omega⟩

/-- **C37**: `year`, `month` and `day` of a datetime are its day in the Gregorian calendar: the day is within the
month, and the days of the preceding years and months, with the day, count to the datetime's midnight. -/
theorem datetime_calendar (env : Env) (dc : DecCtx) (us : Int) (tz : Nat) :
    ∃ (year day midnight : Int) (month : Nat),
      AttrIs env dc (.datetime us (some tz)) "year" year ∧
      AttrIs env dc (.datetime us (some tz)) "month" month ∧
      AttrIs env dc (.datetime us (some tz)) "day" day ∧
      attrResult env dc (.datetime us (some tz)) "date" = .ok (.datetime midnight (some tz)) ∧
      1 ≤ month ∧ month ≤ 12 ∧ 1 ≤ day ∧ day ≤ monthLength year month ∧
      midnight = (daysBeforeYear year + daysBefore year month + (day - 1)) * (86400 * 1000000) := by
  obtain ⟨_, _, _, _, midnight, -, -, -, -, hd, -, -⟩ := datetime_attributes env dc us tz
  rcases hq : ymdOfDay (us / dayUs) with ⟨y, m, d⟩
  obtain ⟨t1, t2, t3, t4, t5⟩ := ymd_spec (us / dayUs) _ _ _ hq
  refine ⟨y, d, us - us % dayUs, m,
    ?_, ?_, ?_, ?_, t1, t2, t3, t4, ?_⟩
  · refine attrIs_of env dc _ _ _ ?_; simp [resolveAttr, fromValue, attrKind, attrTypeFn, attrValue, except_ok_bind, coerceVerify, coerce, DataType.compat, newValue, hq]
  · refine attrIs_of env dc _ _ _ ?_; simp [resolveAttr, fromValue, attrKind, attrTypeFn, attrValue, except_ok_bind, coerceVerify, coerce, DataType.compat, newValue, hq]
  · refine attrIs_of env dc _ _ _ ?_; simp [resolveAttr, fromValue, attrKind, attrTypeFn, attrValue, except_ok_bind, coerceVerify, coerce, DataType.compat, newValue, hq]
  · refine (attr_of_resolve env dc _ (.datetime (us - us % dayUs) (some tz)) _ ?_).trans ?_
    · simp [resolveAttr, fromValue, attrKind, attrTypeFn, attrValue, except_ok_bind, coerceVerify, coerce, DataType.compat, newValue, hq]
    · rfl
  · rw [← t5]; unfold dayUs; omega

/-- Witness for C37: 29 February 2020, 13:14:15.000016. -/
theorem datetime_attributes_witness :
    AttrIs sampleEnv .default (.datetime 63718578855000016 (some 0)) "year" 2020 ∧
    AttrIs sampleEnv .default (.datetime 63718578855000016 (some 0)) "month" 2 ∧
    AttrIs sampleEnv .default (.datetime 63718578855000016 (some 0)) "day" 29 ∧
    AttrIs sampleEnv .default (.datetime 63718578855000016 (some 0)) "hour" 13 ∧
    AttrIs sampleEnv .default (.timedelta (-1)) "days" (-1) ∧
    AttrIs sampleEnv .default (.timedelta (-1)) "seconds" 86399 := by
  unfold AttrIs
  decide +kernel

end RE
