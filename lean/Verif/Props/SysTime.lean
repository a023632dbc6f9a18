import Verif.Model.SysTime
import Verif.Proofs.Printf
/-
The texts of the clock.
-/
namespace Verif.SysTime
open Printf DateSpec

theorem two_digits {i : Int} (h0 : 0 ≤ i) (h : i < 100) : ∃ a b, d0 2 i = [a, b] ∧ number [a, b] = some i.toNat := by
  have e := d0_digits (w := 2) (by omega) h0 (by omega)
  have hn := number_digits 2 i.toNat (by omega)
  rw [← e] at hn
  refine ⟨UInt8.ofNat (48 + i.toNat / 10 % 10), UInt8.ofNat (48 + i.toNat % 10), ?_, ?_⟩
  · rw [e]; rfl
  · rwa [e] at hn

theorem three_digits {i : Int} (h0 : 0 ≤ i) (h : i < 1000) : ∃ a b c, d0 3 i = [a, b, c] ∧ number [a, b, c] = some i.toNat := by
  have e := d0_digits (w := 3) (by omega) h0 (by omega)
  have hn := number_digits 3 i.toNat (by omega)
  rw [e]
  exact ⟨_, _, _, rfl, hn⟩

theorem four_digits {i : Int} (h0 : 0 ≤ i) (h : i < 10000) : ∃ a b c e, d0 4 i = [a, b, c, e] ∧ number [a, b, c, e] = some i.toNat := by
  have e := d0_digits (w := 4) (by omega) h0 (by omega)
  have hn := number_digits 4 i.toNat (by omega)
  rw [e]
  exact ⟨_, _, _, _, rfl, hn⟩

/-- What `gmtime_r` and `localtime_r` promise about a date: every field in its range. -/
structure Ranges (t : Tm) : Prop where
  sec : 0 ≤ t.sec ∧ t.sec ≤ 60
  min : 0 ≤ t.min ∧ t.min < 60
  hour : 0 ≤ t.hour ∧ t.hour < 24
  mday : 1 ≤ t.mday ∧ t.mday ≤ 31
  mon : t.mon < 12
  wday : t.wday < 7

/-- The date a `struct tm` stands for. -/
def fields (t : Tm) : Fields := ⟨(t.year + 1900).toNat, t.mon, t.mday.toNat, t.hour.toNat, t.min.toNat, t.sec.toNat⟩

theorem week_name (w : Nat) (h : w < 7) : ∃ a b c, week[w]? = some [a, b, c] ∧ nameIdx days [a, b, c] = some w := by
  have hd : ∀ w < 7, (match week[w]? with | some [a, b, c] => nameIdx days [a, b, c] == some w | _ => false) = true := by decide +kernel
  have := hd w h
  split at this
  · rename_i a b c e; exact ⟨a, b, c, e, by simpa using this⟩
  · simp at this

theorem month_name (m : Nat) (h : m < 12) : ∃ a b c, month[m]? = some [a, b, c] ∧ nameIdx months [a, b, c] = some m := by
  have hd : ∀ w < 12, (match month[w]? with | some [a, b, c] => nameIdx months [a, b, c] == some w | _ => false) = true := by decide +kernel
  have := hd m h
  split at this
  · rename_i a b c e; exact ⟨a, b, c, e, by simpa using this⟩
  · simp at this

/-- C75. For every date of the years 0 to 9999 the `Date` text is an HTTP date that a client reads back as exactly that date; it has 29
bytes and stays inside its array. -/
theorem c75_http_date (t : Tm) (h : Ranges t) (hy : 0 ≤ t.year + 1900 ∧ t.year + 1900 < 10000) :
    ∃ x, gmt t = some x ∧ readHttp x = some (t.wday, fields t) ∧ x.length = 29 := by
  obtain ⟨w0, w1, w2, ew, nw⟩ := week_name t.wday h.wday
  obtain ⟨m0, m1, m2, em, nm⟩ := month_name t.mon h.mon
  obtain ⟨a0, a1, ea, na⟩ := two_digits (i := t.mday) (by have := h.mday; omega) (by have := h.mday; omega)
  obtain ⟨y0, y1, y2, y3, ey, ny⟩ := four_digits hy.1 hy.2
  obtain ⟨h0, h1, eh, nh⟩ := two_digits (i := t.hour) h.hour.1 (by have := h.hour; omega)
  obtain ⟨i0, i1, ei, ni⟩ := two_digits (i := t.min) h.min.1 (by have := h.min; omega)
  obtain ⟨s0, s1, es, ns⟩ := two_digits (i := t.sec) h.sec.1 (by have := h.sec; omega)
  have q1 : str ", " = [44, 32] := by decide +kernel
  have q2 : str " " = [32] := by decide +kernel
  have q3 : str ":" = [58] := by decide +kernel
  have q4 : str " GMT" = [32, 71, 77, 84] := by decide +kernel
  refine ⟨_, by simp only [gmt, ew, em, ea, ey, eh, ei, es, q1, q2, q3, q4, into, List.cons_append, List.nil_append]; exact if_pos (by simp [room]), ?_, rfl⟩
  simp only [readHttp, nw, nm, na, ny, nh, ni, ns, fields]

/-- The 15th of November 2026 is such a date. -/
example : Ranges ⟨6, 5, 4, 15, 10, 126, 0⟩ ∧ gmt ⟨6, 5, 4, 15, 10, 126, 0⟩ = some (str "Sun, 15 Nov 2026 04:05:06 GMT") := by
  refine ⟨⟨by decide, by decide, by decide, by decide, by decide, by decide⟩, by decide +kernel⟩

/-- C76. The time stamp of log lines is read back as the local time, to the millisecond, for every date of the years 2000 to 2999; it has 23
bytes and stays inside its array. -/
theorem c76_log_time_partial (t : Tm) (h : Ranges t) (hy : 2000 ≤ t.year + 1900 ∧ t.year + 1900 < 3000) (usec : Int)
    (hu : 0 ≤ usec ∧ usec < 1000000) :
    ∃ x, log t (usec.tdiv 1000) = some x ∧ readLog x = some (fields t, (usec / 1000).toNat) ∧ x.length = 23 := by
  have eu : usec.tdiv 1000 = usec / 1000 := Int.tdiv_eq_ediv_of_nonneg hu.1
  have small : ∀ {i : Int}, 0 ≤ i → i < 100 → i.tmod 100 = i := fun h0 h1 => by
    rw [Int.tmod_eq_emod_of_nonneg h0, Int.emod_eq_of_lt h0 h1]
  have ty : (t.year + 1900).tmod 1000 + 2000 = t.year + 1900 := by
    rw [Int.tmod_eq_emod_of_nonneg (by omega)]; omega
  obtain ⟨m0, m1, em, nm⟩ := two_digits (i := (t.mon : Int) + 1) (by omega) (by have := h.mon; omega)
  obtain ⟨a0, a1, ea, na⟩ := two_digits (i := t.mday) (by have := h.mday; omega) (by have := h.mday; omega)
  obtain ⟨y0, y1, y2, y3, ey, ny⟩ := four_digits (i := t.year + 1900) (by omega) (by omega)
  obtain ⟨h0, h1, eh, nh⟩ := two_digits (i := t.hour) h.hour.1 (by have := h.hour; omega)
  obtain ⟨i0, i1, ei, ni⟩ := two_digits (i := t.min) h.min.1 (by have := h.min; omega)
  obtain ⟨s0, s1, es, ns⟩ := two_digits (i := t.sec) h.sec.1 (by have := h.sec; omega)
  obtain ⟨u0, u1, u2, eu', nu⟩ := three_digits (i := usec / 1000) (by omega) (by omega)
  have q1 : str "/" = [47] := by decide +kernel
  have q2 : str " " = [32] := by decide +kernel
  have q3 : str ":" = [58] := by decide +kernel
  have q4 : str "." = [46] := by decide +kernel
  have := h.mon; have := h.mday; have := h.hour; have := h.min; have := h.sec
  refine ⟨_, by
    simp only [log, ty, eu, small (i := (t.mon : Int) + 1) (by omega) (by omega), small (i := t.mday) (by omega) (by omega),
      small (i := t.hour) (by omega) (by omega), small (i := t.min) (by omega) (by omega), small (i := t.sec) (by omega) (by omega),
      em, ea, ey, eh, ei, es, eu', q1, q2, q3, q4, into, List.cons_append, List.nil_append]
    exact if_pos (by simp [room]), ?_, rfl⟩
  simp only [readLog, nm, na, ny, nh, ni, ns, nu, fields]
  rw [if_neg (by omega)]
  rfl

/-- A date that meets the hypotheses. -/
example : log ⟨6, 5, 4, 15, 10, 126, 0⟩ ((789123 : Int).tdiv 1000) = some (str "2026/11/15 04:05:06.789") := by decide +kernel

/-- C76 is false for a clock that shows a year before 2000 or after 2999, for example one that was never set (1970): the time stamp names
another year. -/
theorem c76_year_counterexample (t : Tm) (h : Ranges t) (hy : 0 ≤ t.year + 1900 ∧ (t.year + 1900 < 2000 ∨ 3000 ≤ t.year + 1900)) (usec : Int)
    (hu : 0 ≤ usec ∧ usec < 1000000) :
    ∃ x f u, log t (usec.tdiv 1000) = some x ∧ readLog x = some (f, u) ∧ f.year ≠ (fields t).year := by
  have e : log t (usec.tdiv 1000) = log { t with year := (t.year + 1900).tmod 1000 + 100 } (usec.tdiv 1000) := by
    have ht : (t.year + 1900).tmod 1000 = (t.year + 1900) % 1000 := Int.tmod_eq_emod_of_nonneg hy.1
    have : ((t.year + 1900).tmod 1000 + 100 + 1900).tmod 1000 = (t.year + 1900).tmod 1000 := by
      rw [ht, Int.tmod_eq_emod_of_nonneg (by omega)]; omega
    simp only [log, this]
  have ht : (t.year + 1900).tmod 1000 = (t.year + 1900) % 1000 := Int.tmod_eq_emod_of_nonneg hy.1
  obtain ⟨x, hx, hr, -⟩ := c76_log_time_partial { t with year := (t.year + 1900).tmod 1000 + 100 }
    ⟨h.sec, h.min, h.hour, h.mday, h.mon, h.wday⟩ (by simp only [ht]; omega) usec hu
  refine ⟨x, _, _, e.trans hx, hr, ?_⟩
  simp only [fields, ht]
  omega

/-- The first second of 1970 is logged as 2970. -/
example : log ⟨0, 0, 0, 1, 0, 70, 4⟩ 0 = some (str "2970/01/01 00:00:00.000") := by decide +kernel

/-- C77: the clock the timers use is the time of day in whole milliseconds, and it never goes back while the time of day does not. -/
theorem c77_clock (sec usec sec' usec' : Int) (h : 0 ≤ usec ∧ usec < 1000000) (h' : 0 ≤ usec' ∧ usec' < 1000000) :
    msec sec usec = (sec * 1000000 + usec) / 1000 ∧ (sec * 1000000 + usec ≤ sec' * 1000000 + usec' → msec sec usec ≤ msec sec' usec') := by
  simp only [msec, Int.tdiv_eq_ediv_of_nonneg h.1, Int.tdiv_eq_ediv_of_nonneg h'.1]
  omega

/-- A reading just before the next second. -/
example : msec 1763000000 999999 = 1763000000999 := by decide

end Verif.SysTime
