import Verif.Model.CStr

/-
Arrays and C strings.
-/
namespace Conman

/-- The array with the bytes `s` stored from offset `i`. -/
def over (buf : List UInt8) (i : Nat) (s : List UInt8) : List UInt8 := buf.take i ++ s ++ buf.drop (i + s.length)

theorem over_length {buf : List UInt8} {i : Nat} {s : List UInt8} (h : i + s.length ≤ buf.length) :
    (over buf i s).length = buf.length := by
  unfold over; simp only [List.length_append, List.length_take, List.length_drop]; omega

theorem over_nil (buf : List UInt8) (i : Nat) : over buf i [] = buf := by
  unfold over; simp

theorem set_over {buf : List UInt8} {i : Nat} (h : i < buf.length) (b : UInt8) : buf.set i b = over buf i [b] := by
  unfold over
  rw [List.set_eq_take_append_cons_drop, if_pos h]
  simp

theorem over_over {buf : List UInt8} {i : Nat} {a b : List UInt8} (h : i + a.length ≤ buf.length) :
    over (over buf i a) (i + a.length) b = over buf i (a ++ b) := by
  unfold over
  have e1 : (buf.take i ++ a ++ buf.drop (i + a.length)).take (i + a.length) = buf.take i ++ a := by
    rw [List.take_append_of_le_length (by simp; omega), List.take_of_length_le (by simp; omega)]
  have e2 : (buf.take i ++ a ++ buf.drop (i + a.length)).drop (i + a.length + b.length) = buf.drop (i + (a ++ b).length) := by
    rw [List.drop_append, List.drop_eq_nil_of_le (by simp; omega), List.drop_drop, List.length_append, List.length_append,
      List.length_take, Nat.min_eq_left (by omega)]
    simp only [List.nil_append]
    congr 1; omega
  rw [e1, e2]; simp

theorem poke_eq {buf : List UInt8} {i : Nat} (h : i < buf.length) (b : UInt8) : poke buf i b = some (over buf i [b]) := by
  unfold poke; rw [if_pos h, set_over h]

theorem pokes_eq (s : List UInt8) : ∀ {buf : List UInt8} {i : Nat}, i + s.length ≤ buf.length → pokes buf i s = some (over buf i s) := by
  induction s with
  | nil => intro buf i _; simp [pokes, over_nil]
  | cons b s ih =>
    intro buf i h
    simp only [List.length_cons] at h
    unfold pokes
    rw [poke_eq (by omega), Option.bind_some, ih (by rw [over_length (by simp; omega)]; omega)]
    have := over_over (buf := buf) (i := i) (a := [b]) (b := s) (by simp; omega)
    simp only [List.length_singleton, List.singleton_append] at this
    rw [this]

theorem over_drop {buf : List UInt8} {i n : Nat} {s : List UInt8} (h : i + s.length ≤ n) (hn : n ≤ buf.length) :
    (over buf i s).drop n = buf.drop n := by
  unfold over
  rw [List.drop_append, List.drop_eq_nil_of_le (by simp; omega), List.drop_drop]
  simp only [List.length_append, List.length_take, List.nil_append]
  congr 1; omega

theorem over_take {buf : List UInt8} {i : Nat} {s : List UInt8} (h : i ≤ buf.length) :
    (over buf i s).take i = buf.take i := by
  unfold over
  rw [List.append_assoc, List.take_append_of_le_length (by simp; omega), List.take_take, Nat.min_self]

theorem takeWhile_nz {a b : List UInt8} (h : (0 : UInt8) ∉ a) : (a ++ 0 :: b).takeWhile (· ≠ 0) = a := by
  induction a with
  | nil => simp
  | cons x a ih =>
    simp only [List.mem_cons, not_or] at h
    rw [List.cons_append, List.takeWhile_cons]
    have : x ≠ 0 := fun e => h.1 e.symm
    rw [if_pos (by simp [this]), ih h.2]

theorem cstr_app {a b : List UInt8} (h : (0 : UInt8) ∉ a) : cstr (a ++ 0 :: b) = some a := by
  unfold cstr; rw [if_pos (by simp), takeWhile_nz h]

theorem cstr_iff {buf d : List UInt8} : cstr buf = some d ↔ (0 : UInt8) ∉ d ∧ ∃ b, buf = d ++ 0 :: b := by
  constructor
  · intro h
    unfold cstr at h
    split at h
    · rename_i hm
      simp only [Option.some.injEq] at h
      subst h
      refine ⟨?_, ?_⟩
      · intro hz
        have : ∀ l : List UInt8, (0 : UInt8) ∉ l.takeWhile (· ≠ 0) := by
          intro l
          induction l with
          | nil => simp
          | cons x l ih =>
            rw [List.takeWhile_cons]
            split
            · rename_i hx
              intro hm
              rcases List.mem_cons.1 hm with e | e
              · rw [← e] at hx; simp at hx
              · exact ih e
            · simp
        exact this _ hz
      · induction buf with
        | nil => simp at hm
        | cons x buf ih =>
          by_cases hx : x = 0
          · subst hx; exact ⟨buf, by simp⟩
          · rw [List.mem_cons] at hm
            obtain ⟨b, hb⟩ := ih (hm.resolve_left (fun e => hx e.symm))
            refine ⟨b, ?_⟩
            rw [List.takeWhile_cons, if_pos (by simp [hx]), List.cons_append, ← hb]
    · simp at h
  · rintro ⟨h, b, rfl⟩; exact cstr_app h

/-- A string stored at the start. -/
theorem cstr_over {buf d : List UInt8} (h : (0 : UInt8) ∉ d) : cstr (over buf 0 (d ++ [0])) = some d := by
  unfold over
  simp only [List.take_zero, List.nil_append, List.append_assoc, List.singleton_append]
  exact cstr_app h

/-- A string stored over the terminator of another. -/
theorem cstr_over_at {buf a d : List UInt8} {i : Nat} (ha : buf.take i = a) (hz : (0 : UInt8) ∉ a) (h : (0 : UInt8) ∉ d) :
    cstr (over buf i (d ++ [0])) = some (a ++ d) := by
  unfold over
  rw [ha, ← List.append_assoc, List.append_assoc, List.singleton_append]
  exact cstr_app (by simp [hz, h])

theorem snprintf_eq {buf : List UInt8} {i size : Nat} {s : List UInt8} (hs : 0 < size) (h : i + min size (s.length + 1) ≤ buf.length) :
    snprintf buf i size s = some (over buf i (s.take (size - 1) ++ [0]), s.length) := by
  unfold snprintf
  rw [if_neg (by omega), pokes_eq _ (by simp; omega)]
  rfl

/-! ### strlcpy, strlcat -/

theorem strlcpyCopy_eq (s : List UInt8) : ∀ {dst : List UInt8} {d k n : Nat}, 0 < n → d + min n (s.length + 1) ≤ dst.length →
    strlcpyCopy dst d k s n =
      if s.length < n then some (over dst d (s ++ [0]), d + s.length + 1, k + s.length + 1, [], n - s.length)
      else some (over dst d (s.take n), d + n, k + n, s.drop n, 0) := by
  induction s with
  | nil =>
    intro dst d k n hn h
    obtain ⟨n, rfl⟩ : ∃ m, n = m + 1 := ⟨n - 1, by omega⟩
    simp only [List.length_nil] at h
    unfold strlcpyCopy
    rw [poke_eq (by omega), if_pos (by simp)]
    rfl
  | cons c s ih =>
    intro dst d k n hn h
    obtain ⟨n, rfl⟩ : ∃ m, n = m + 1 := ⟨n - 1, by omega⟩
    simp only [List.length_cons] at h
    unfold strlcpyCopy
    rw [poke_eq (by omega), Option.bind_some]
    by_cases h0 : n = 0
    · subst h0
      rw [if_pos rfl, if_neg (by simp)]
      simp
    · rw [if_neg h0, ih (by omega) (by rw [over_length (by simp; omega)]; omega)]
      have oo : ∀ x, over (over dst d [c]) (d + 1) x = over dst d (c :: x) := by
        intro x
        have := over_over (buf := dst) (i := d) (a := [c]) (b := x) (by simp; omega)
        simpa using this
      rw [oo, oo]
      by_cases hl : s.length < n
      · rw [if_pos hl, if_pos (by simp; omega)]
        simp only [List.length_cons, List.cons_append, Option.some.injEq, Prod.mk.injEq, true_and]
        omega
      · rw [if_neg hl, if_neg (by simp; omega)]
        simp only [List.take_succ_cons, List.drop_succ_cons, Option.some.injEq, Prod.mk.injEq, true_and, and_true]
        omega

theorem strlcpy_eq {dst : List UInt8} {off : Nat} {src : List UInt8} {siz : Nat} (hs : 0 < siz)
    (h : off + min siz (src.length + 1) ≤ dst.length) :
    strlcpy dst off src siz = some (over dst off (src.take (siz - 1) ++ [0]), src.length) := by
  unfold strlcpy
  by_cases h1 : siz = 1
  · subst h1
    rw [if_neg (by simp), Option.bind_some]
    dsimp only
    rw [if_pos rfl, if_pos (by omega), poke_eq (by omega)]
    simp
  · rw [if_pos (by omega), strlcpyCopy_eq _ (by omega) (by omega)]
    by_cases hl : src.length < siz - 1
    · rw [if_pos hl, Option.bind_some]
      dsimp only
      rw [if_neg (by omega), List.take_of_length_le (by omega)]
      simp
    · rw [if_neg hl, Option.bind_some]
      dsimp only
      rw [if_pos rfl, if_pos (by omega), poke_eq (by rw [over_length (by simp; omega)]; omega)]
      have := over_over (buf := dst) (i := off) (a := src.take (siz - 1)) (b := [0]) (by simp; omega)
      have e : (src.take (siz - 1)).length = siz - 1 := by simp; omega
      rw [e] at this
      rw [this]
      simp only [Option.map_some, List.length_drop, Option.some.injEq, Prod.mk.injEq, true_and]
      omega

theorem strlcpy_zero (dst : List UInt8) (off : Nat) (src : List UInt8) : strlcpy dst off src 0 = some (dst, src.length) := by
  simp [strlcpy]

theorem strlcatEnd_eq {a b : List UInt8} (h : (0 : UInt8) ∉ b) (n : Nat) (hn : b.length ≤ n) (rest : List UInt8) (hr : n = b.length ∨ ∃ t, rest = 0 :: t) :
    strlcatEnd (a ++ b ++ rest) n a.length = some (a.length + b.length) := by
  induction b generalizing a n with
  | nil =>
    cases n with
    | zero => simp [strlcatEnd]
    | succ n =>
      rcases hr with hr | ⟨t, rfl⟩
      · simp at hr
      · unfold strlcatEnd
        simp
  | cons x b ih =>
    obtain ⟨n, rfl⟩ : ∃ m, n = m + 1 := ⟨n - 1, by simp at hn; omega⟩
    simp only [List.mem_cons, not_or] at h
    simp only [List.length_cons] at hn
    unfold strlcatEnd
    have e : (a ++ x :: b ++ rest)[a.length]? = some x := by simp
    rw [e]
    have hx : x ≠ 0 := fun e => h.1 e.symm
    simp only [ne_eq, hx, not_false_eq_true, if_true]
    have := ih (a := a ++ [x]) h.2 n (by omega) (by rcases hr with hr | hr; left; simpa using hr; right; exact hr)
    simp only [List.append_assoc, List.nil_append, List.length_append, List.length_singleton, List.cons_append] at this ⊢
    rw [this]
    simp; omega

theorem strlcatCopy_eq (s : List UInt8) : ∀ {dst : List UInt8} {d n : Nat}, 0 < n → d + min n (s.length + 1) ≤ dst.length →
    strlcatCopy dst d s n = some (over dst d (s.take (n - 1) ++ [0])) := by
  induction s with
  | nil =>
    intro dst d n hn h
    simp only [List.length_nil] at h
    unfold strlcatCopy
    rw [poke_eq (by omega)]
    simp
  | cons c s ih =>
    intro dst d n hn h
    simp only [List.length_cons] at h
    unfold strlcatCopy
    by_cases h1 : n = 1
    · rw [if_neg (by omega), ih hn (by omega)]
      subst h1; simp
    · rw [if_pos h1, poke_eq (by omega), Option.bind_some, ih (by omega) (by rw [over_length (by simp; omega)]; omega)]
      have := over_over (buf := dst) (i := d) (a := [c]) (b := s.take (n - 1 - 1) ++ [0]) (by simp; omega)
      simp only [List.length_singleton] at this
      rw [this]
      obtain ⟨m, rfl⟩ : ∃ m, n = m + 2 := ⟨n - 2, by omega⟩
      simp

/-! ### append_format_string -/

theorem appendEnd_eq {a b t : List UInt8} (h : (0 : UInt8) ∉ b) : ∀ {left : Nat}, b.length < left →
    appendEnd (a ++ b ++ 0 :: t) a.length left = some (a.length + b.length, left - b.length) := by
  induction b generalizing a with
  | nil =>
    intro left hl
    obtain ⟨m, rfl⟩ : ∃ m, left = m + 1 := ⟨left - 1, by simp at hl; omega⟩
    unfold appendEnd
    simp
  | cons x b ih =>
    intro left hl
    simp only [List.length_cons] at hl
    obtain ⟨m, rfl⟩ : ∃ m, left = m + 1 := ⟨left - 1, by omega⟩
    simp only [List.mem_cons, not_or] at h
    unfold appendEnd
    have e : (a ++ x :: b ++ 0 :: t)[a.length]? = some x := by simp
    rw [e]
    have hx : x ≠ 0 := fun e => h.1 e.symm
    simp only [ne_eq, hx, not_false_eq_true, if_true]
    have := ih (a := a ++ [x]) h.2 (left := m) (by omega)
    simp only [List.append_assoc, List.nil_append, List.length_append, List.length_singleton, List.cons_append] at this ⊢
    rw [this]
    simp; omega

theorem appendEnd_over {a b : List UInt8} (h : (0 : UInt8) ∉ b) :
    appendEnd (a ++ b) a.length b.length = none := by
  induction b generalizing a with
  | nil => unfold appendEnd; simp
  | cons x b ih =>
    simp only [List.mem_cons, not_or] at h
    unfold appendEnd
    have e : (a ++ x :: b)[a.length]? = some x := by simp
    rw [e]
    have hx : x ≠ 0 := fun e => h.1 e.symm
    simp only [List.length_cons, ne_eq, hx, not_false_eq_true, if_true]
    have := ih (a := a ++ [x]) h.2
    simpa using this

end Conman
