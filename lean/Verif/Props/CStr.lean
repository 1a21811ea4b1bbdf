import Verif.Lemma.CStr
import Verif.Spec.CStr

/-
C20-C23: bounded string functions.
-/
namespace Conman
open Spec

/-! ### C23 -/

/-- C23. `strlcpy` into an array of at least `siz` bytes. -/
theorem C23_strlcpy (dst src : List UInt8) (siz : Nat) (h : siz ≤ dst.length) (hsrc : (0 : UInt8) ∉ src) :
    ∃ dst', strlcpy dst 0 src siz = some (dst', src.length) ∧ dst'.length = dst.length ∧ dst'.drop siz = dst.drop siz ∧
      (0 < siz → cstr dst' = some (src.take (siz - 1))) := by
  by_cases hs : siz = 0
  · subst hs
    exact ⟨dst, strlcpy_zero _ _ _, rfl, rfl, fun h => absurd h (by omega)⟩
  · refine ⟨_, strlcpy_eq (by omega) (by omega), over_length (by simp; omega), over_drop (by simp; omega) h, fun _ => ?_⟩
    exact cstr_over (fun hm => hsrc (List.mem_of_mem_take hm))

/-- C23. The array may be as small as the string it is to hold. -/
theorem C23_strlcpy_short (dst src : List UInt8) (siz : Nat) (h : src.length < dst.length) (hs : src.length < siz)
    (hsrc : (0 : UInt8) ∉ src) :
    ∃ dst', strlcpy dst 0 src siz = some (dst', src.length) ∧ dst'.length = dst.length ∧
      dst'.drop (src.length + 1) = dst.drop (src.length + 1) ∧ cstr dst' = some src := by
  have e : src.take (siz - 1) = src := List.take_of_length_le (by omega)
  refine ⟨_, strlcpy_eq (by omega) (by omega), over_length (by simp; omega), over_drop (by simp; omega) (by omega), ?_⟩
  rw [e]; exact cstr_over hsrc

/-- C23. `strlcat` to a string `d` that ends within the first `siz` bytes. -/
theorem C23_strlcat (dst d src : List UInt8) (siz : Nat) (h : siz ≤ dst.length) (hd : cstr dst = some d) (hl : d.length < siz)
    (hsrc : (0 : UInt8) ∉ src) :
    ∃ dst', strlcat dst src siz = some (dst', d.length + src.length) ∧ dst'.length = dst.length ∧
      dst'.drop siz = dst.drop siz ∧ cstr dst' = some ((d ++ src).take (siz - 1)) := by
  obtain ⟨hz, b, rfl⟩ := cstr_iff.1 hd
  have e := strlcatEnd_eq (a := []) hz siz (by omega) (0 :: b) (Or.inr ⟨b, rfl⟩)
  simp only [List.nil_append, List.length_nil, Nat.zero_add] at e
  unfold strlcat
  rw [e, Option.bind_some, if_neg (by omega), strlcatCopy_eq _ (by omega) (by omega)]
  refine ⟨_, rfl, over_length (by simp at h ⊢; omega), over_drop (by simp; omega) h, ?_⟩
  rw [cstr_over_at (a := d) (by simp) hz (fun hm => hsrc (List.mem_of_mem_take hm))]
  rw [List.take_append, List.take_of_length_le (by omega : d.length ≤ siz - 1)]
  congr 3; omega

/-- C23. `strlcat` to an array whose first `siz` bytes hold no terminator changes nothing. -/
theorem C23_strlcat_full (dst src : List UInt8) (siz : Nat) (h : siz ≤ dst.length) (hd : (0 : UInt8) ∉ dst.take siz) :
    strlcat dst src siz = some (dst, siz + src.length) := by
  have e := strlcatEnd_eq (a := []) hd siz (by simp; omega) (dst.drop siz) (Or.inl (by simp; omega))
  simp only [List.nil_append, List.length_nil, Nat.zero_add, List.take_append_drop, List.length_take, Nat.min_eq_left h] at e
  unfold strlcat
  rw [e, Option.bind_some, if_pos (by omega)]

example : strlcpy (bs "xxxxxxxx") 0 (bs "hello") 4 = some ((bs "hel") ++ [0] ++ bs "xxxx", 5) ∧
    strlcat (bs "ab" ++ [0] ++ bs "xxxxx") (bs "hello") 6 = some (bs "abhel" ++ [0] ++ bs "xx", 7) ∧
    cstr (bs "ab" ++ [0] ++ bs "xxxxx") = some (bs "ab") ∧ (0 : UInt8) ∉ bs "hello" ∧
    (0 : UInt8) ∉ (bs "ab" ++ [0]).take 2 := by decide

/-! ### C20 -/

/-- C20. Partial: the full claim is that -1 is returned exactly when `size ≤ d.length + s.length`; the code also returns -1 for
an empty `s` when the string already fills the buffer (`C20_empty_append_on_full`).
Appending `s` to the string `d` in an array of `size` bytes (or more). -/
theorem C20_append_partial (dst d s : List UInt8) (size : Nat) (h : size ≤ dst.length) (hd : cstr dst = some d) (hl : d.length < size)
    (hs : (0 : UInt8) ∉ s) :
    ∃ dst', appendFormat dst size s =
        some (dst', if d.length + 1 = size ∨ size ≤ d.length + s.length then -1 else ((d.length + s.length : Nat) : Int)) ∧
      dst'.length = dst.length ∧ dst'.drop size = dst.drop size ∧ cstr dst' = some ((d ++ s).take (size - 1)) := by
  obtain ⟨hz, b, rfl⟩ := cstr_iff.1 hd
  have e := appendEnd_eq (a := []) (t := b) hz hl
  simp only [List.nil_append, List.length_nil, Nat.zero_add] at e
  unfold appendFormat
  rw [if_neg (by omega), e, Option.bind_some]
  dsimp only
  by_cases h1 : d.length + 1 = size
  · rw [if_pos (by omega), poke_eq (by omega), if_pos (Or.inl h1)]
    refine ⟨_, rfl, over_length (by simp at h ⊢; omega), over_drop (by simp; omega) h, ?_⟩
    have e2 : size - 1 = d.length := by omega
    rw [e2, List.take_append_of_le_length (Nat.le_refl _), List.take_length]
    have := cstr_over_at (buf := d ++ 0 :: b) (a := d) (d := []) (i := d.length) (by simp) hz (by simp)
    simpa using this
  · rw [if_neg (by omega), snprintf_eq (by omega) (by omega)]
    refine ⟨over (d ++ 0 :: b) d.length (s.take (size - d.length - 1) ++ [0]), ?_, over_length (by simp at h ⊢; omega),
      over_drop (by simp; omega) h, ?_⟩
    · rw [Option.map_some]
      dsimp only
      by_cases h2 : size ≤ d.length + s.length
      · rw [if_pos (by omega), if_pos (Or.inr h2)]
      · rw [if_neg (by omega), if_neg (by omega)]
        rfl
    · rw [cstr_over_at (a := d) (by simp) hz (fun hm => hs (List.mem_of_mem_take hm))]
      rw [List.take_append, List.take_of_length_le (by omega : d.length ≤ size - 1)]
      congr 3; omega

theorem appendPieces_eq (ss : List (List UInt8)) (size : Nat) : ∀ (dst d : List UInt8) (r : Int), size ≤ dst.length → cstr dst = some d →
    d.length < size → (∀ s ∈ ss, (0 : UInt8) ∉ s) →
    ∃ dst' r', appendPieces dst size r ss = some (dst', r') ∧ dst'.length = dst.length ∧ dst'.drop size = dst.drop size ∧
      cstr dst' = some ((d ++ ss.flatten).take (size - 1)) ∧
      (∀ l, ss.getLast? = some l → l ≠ [] →
        r' = if (d ++ ss.flatten).length < size then ((d ++ ss.flatten).length : Int) else -1) := by
  induction ss with
  | nil =>
    intro dst d r h hd hl _
    exact ⟨dst, r, rfl, rfl, rfl, by simp [List.take_of_length_le (by omega : d.length ≤ size - 1), hd], by simp⟩
  | cons s ss ih =>
    intro dst d r h hd hl hz
    obtain ⟨dst1, e1, l1, p1, c1⟩ := C20_append_partial dst d s size h hd hl (hz s (by simp))
    obtain ⟨dst2, r2, e2, l2, p2, c2, q2⟩ := ih dst1 _ (if d.length + 1 = size ∨ size ≤ d.length + s.length then -1 else ((d.length + s.length : Nat) : Int))
      (by omega) c1 (by simp; omega) (fun x hx => hz x (by simp [hx]))
    refine ⟨dst2, r2, by unfold appendPieces; rw [e1]; exact e2, by rw [l2, l1], by rw [p2, p1], ?_, ?_⟩
    · rw [c2, List.flatten_cons, ← List.append_assoc]
      congr 1
      by_cases hh : (d ++ s).length ≤ size - 1
      · rw [List.take_of_length_le hh]
      · have e3 : ((d ++ s).take (size - 1)).length = size - 1 := by rw [List.length_take]; omega
        rw [List.take_append_of_le_length (l₁ := List.take (size - 1) (d ++ s)) (by omega), List.take_take, Nat.min_self,
          List.take_append_of_le_length (l₁ := d ++ s) (by omega)]
    · intro l hlast hne
      cases ss with
      | nil =>
        simp only [List.getLast?_singleton, Option.some.injEq] at hlast
        subst hlast
        simp only [appendPieces, Option.some.injEq, Prod.mk.injEq] at e2
        rw [← e2.2]
        have : 0 < s.length := List.length_pos_iff.2 hne
        by_cases g : d.length + s.length < size
        · rw [if_neg (by omega), if_pos (by simpa using g)]; simp
        · rw [if_pos (by omega), if_neg (by simpa using g)]
      | cons s2 ss2 =>
        have := q2 l (by simpa using hlast) hne
        rw [this]
        have hlen : 0 < (s2 :: ss2).flatten.length := by
          have hm : l ∈ s2 :: ss2 := by
            have := List.mem_of_getLast? hlast
            simp only [List.mem_cons] at this ⊢
            rcases this with h | h
            · subst h
              simp only [List.getLast?_cons_cons] at hlast
              exact List.mem_cons.1 (List.mem_of_getLast? hlast)
            · exact h
          have := List.length_pos_iff.2 hne
          have := (List.sublist_flatten_of_mem hm).length_le
          omega
        rw [List.flatten_cons (l := s), ← List.append_assoc]
        generalize (s2 :: ss2).flatten = f at hlen ⊢
        by_cases hh : (d ++ s).length ≤ size - 1
        · rw [List.take_of_length_le hh]
        · simp only [List.length_append] at hh
          rw [if_neg (by simp; omega), if_neg (by simp; omega)]

/-- Finding. Appending nothing to a string that exactly fills the buffer reports truncation. -/
theorem C20_empty_append_on_full (d : List UInt8) (hz : (0 : UInt8) ∉ d) :
    appendFormat (d ++ [0]) (d.length + 1) [] = some (d ++ [0], -1) := by
  have e := appendEnd_eq (a := []) (t := []) (left := d.length + 1) hz (by omega)
  simp only [List.nil_append, List.length_nil, Nat.zero_add] at e
  unfold appendFormat
  rw [if_neg (by omega), e, Option.bind_some]
  dsimp only
  rw [if_pos (by omega), poke_eq (by simp)]
  simp [over]

/-- C20. Partial: the last piece must not be empty.
A message built from pieces in an empty buffer of `size` bytes, the last piece not empty: the buffer holds the longest
prefix that fits, terminated; the last result tells whether the message was complete, even if an earlier piece was cut and later
pieces are short. -/
theorem C20_pieces_partial (dst : List UInt8) (size : Nat) (ss : List (List UInt8)) (h : size ≤ dst.length) (h0 : 0 < size)
    (hd : dst.head? = some 0) (hz : ∀ s ∈ ss, (0 : UInt8) ∉ s) (l : List UInt8) (hl : ss.getLast? = some l) (hne : l ≠ []) (r : Int) :
    ∃ dst', appendPieces dst size r ss = some (dst', if ss.flatten.length < size then (ss.flatten.length : Int) else -1) ∧
      dst'.length = dst.length ∧ dst'.drop size = dst.drop size ∧ cstr dst' = some (ss.flatten.take (size - 1)) := by
  have hc : cstr dst = some [] := by
    cases dst with
    | nil => simp at hd
    | cons x t => simp only [List.head?_cons, Option.some.injEq] at hd; subst hd; exact cstr_app (a := []) (by simp)
  obtain ⟨dst', r', e, l1, p1, c1, q1⟩ := appendPieces_eq ss size dst [] r h hc (by simpa using h0) hz
  simp only [List.nil_append] at c1 q1
  exact ⟨dst', by rw [e, q1 l hl hne], l1, p1, c1⟩

example : appendPieces ([0] ++ bs "xxxxxxx") 6 0 [bs "ab", bs "cde", bs "f"] = some (bs "abcde" ++ [0] ++ bs "xx", -1) ∧
    appendPieces ([0] ++ bs "xxxxxxx") 6 0 [bs "ab", bs "cd", bs "f"] = some (bs "abcdf" ++ [0] ++ bs "xx", 5) := by decide

/-- Finding. The function means to cope with a buffer that is not terminated (src/util-str.c:197-203), but then reads the byte
after the buffer. -/
theorem C20_unterminated_overread (dst s : List UInt8) (h : (0 : UInt8) ∉ dst) (h0 : dst ≠ []) :
    appendFormat dst dst.length s = none := by
  have := appendEnd_over (a := []) h
  simp only [List.nil_append, List.length_nil] at this
  unfold appendFormat
  rw [if_neg (by simpa using h0), this]
  rfl

/-! ### C21 -/

theorem substAll_nz {c : UInt8} {r : List UInt8} : ∀ {src : List UInt8}, (0 : UInt8) ∉ src → (0 : UInt8) ∉ r → (0 : UInt8) ∉ substAll c r src
  | [], _, _ => by simp [substAll]
  | [b], h, _ => by simpa [substAll] using h
  | b :: b2 :: rest, h, hr => by
    unfold substAll
    simp only [List.mem_cons, not_or] at h
    split
    · rw [List.mem_append, not_or]; exact ⟨hr, substAll_nz h.2.2 hr⟩
    · rw [List.mem_cons, not_or]; exact ⟨h.1, substAll_nz (by simp [h.2]) hr⟩

theorem substLoop_full (c : UInt8) (sub : Option (List UInt8)) (dst : List UInt8) (q : Nat) (len : Int) (h : len ≤ 0) (src : List UInt8) :
    substLoop c sub dst q len src = some (dst, q, len) := by
  match src with
  | [] => simp [substLoop]
  | [b] => simp [substLoop, h]
  | b :: b2 :: rest => unfold substLoop; rw [if_pos h]

/-- State of the loop: either all output has been stored and there is room for the terminator, or the output is too long. -/
theorem substLoop_eq (c : UInt8) (sub : Option (List UInt8)) (N : Nat) : ∀ (src : List UInt8) (dst : List UInt8) (q : Nat),
    N ≤ dst.length → q ≤ N →
    ∃ dst' q' len', substLoop c sub dst q ((N : Int) - q) src = some (dst', q', len') ∧ dst'.length = dst.length ∧
      dst'.drop N = dst.drop N ∧
      (q + (substAll c (sub.getD []) src).length < N →
        len' = (N : Int) - q - (substAll c (sub.getD []) src).length ∧ q' = q + (substAll c (sub.getD []) src).length ∧
        dst'.take q' = dst.take q ++ substAll c (sub.getD []) src) ∧
      (N ≤ q + (substAll c (sub.getD []) src).length →
        len' ≤ 0 ∧ dst'.take (N - 1) = (dst.take q ++ substAll c (sub.getD []) src).take (N - 1))
  | [], dst, q, h, hq => by
    refine ⟨dst, q, _, rfl, rfl, rfl, ?_, ?_⟩
    · simp [substAll]
    · simp only [substAll, List.length_nil, List.append_nil, List.take_take]
      intro hN
      exact ⟨by omega, by congr 1; omega⟩
  | [b], dst, q, h, hq => by
    by_cases hf : q = N
    · subst hf
      refine ⟨dst, q, _, substLoop_full c sub dst q _ (by omega) _, rfl, rfl, ?_, ?_⟩
      · intro hN; omega
      · intro _
        refine ⟨by omega, ?_⟩
        rw [List.take_append_of_le_length (by simp; omega), List.take_take]; congr 1; omega
    · unfold substLoop
      rw [if_neg (by omega), poke_eq (by omega)]
      refine ⟨_, _, _, rfl, over_length (by simp; omega), over_drop (by simp; omega) h, ?_, ?_⟩
      · simp only [substAll, List.length_singleton]
        intro hN
        refine ⟨by omega, trivial, ?_⟩
        unfold over
        rw [List.take_append_of_le_length (by simp; omega), List.take_of_length_le (by simp; omega)]
      · simp only [substAll, List.length_singleton]
        intro hN
        refine ⟨by omega, ?_⟩
        unfold over
        rw [List.take_append_of_le_length (by simp; omega)]
  | b :: b2 :: rest, dst, q, h, hq => by
    by_cases hf : q = N
    · subst hf
      refine ⟨dst, q, _, substLoop_full c sub dst q _ (by omega) _, rfl, rfl, ?_, ?_⟩
      · intro hN; omega
      · intro _
        refine ⟨by omega, ?_⟩
        rw [List.take_append_of_le_length (by simp; omega), List.take_take]; congr 1; omega
    · unfold substLoop substAll
      rw [if_neg (by omega)]
      by_cases hm : b = 0x25 ∧ b2 = c
      · rw [if_pos hm, if_pos hm]
        cases sub with
        | none =>
          simp only [Option.getD_none, List.nil_append]
          exact substLoop_eq c none N rest dst q h hq
        | some s =>
          simp only [Option.getD_some]
          have hlen : ((N : Int) - q).toNat = N - q := by omega
          rw [hlen, strlcpy_eq (by omega) (by omega), Option.bind_some]
          dsimp only
          have hov : (over dst q (s.take (N - q - 1) ++ [0])).length = dst.length := over_length (by simp; omega)
          have hod : (over dst q (s.take (N - q - 1) ++ [0])).drop N = dst.drop N := over_drop (by simp; omega) h
          have hlen2 : (N : Int) - q - s.length = (N : Int) - ((q + s.length : Nat) : Int) := by omega
          by_cases hs : q + s.length < N
          · have hst : s.take (N - q - 1) = s := List.take_of_length_le (by omega)
            rw [hst] at hov hod ⊢
            obtain ⟨d2, q2, l2, e1, e2, e3, e4, e5⟩ := substLoop_eq c (some s) N rest (over dst q (s ++ [0])) (q + s.length)
              (by omega) (by omega)
            have ht : (over dst q (s ++ [0])).take (q + s.length) = dst.take q ++ s := by
              unfold over
              rw [List.append_assoc, List.append_assoc, ← List.append_assoc, List.take_append_of_le_length (by simp; omega),
                List.take_of_length_le (by simp; omega)]
            rw [ht] at e4 e5
            simp only [Option.getD_some] at e4 e5
            rw [hlen2, e1]
            refine ⟨_, _, _, rfl, by rw [e2, hov], by rw [e3, hod], ?_, ?_⟩
            · intro hN
              rw [List.length_append] at hN
              obtain ⟨f1, f2, f3⟩ := e4 (by omega)
              rw [List.length_append]
              exact ⟨by omega, by omega, by rw [f3, List.append_assoc]⟩
            · intro hN
              rw [List.length_append] at hN
              obtain ⟨f1, f2⟩ := e5 (by omega)
              exact ⟨f1, by rw [f2, List.append_assoc]⟩
          · rw [substLoop_full _ _ _ _ _ (by omega)]
            refine ⟨_, _, _, rfl, hov, hod, ?_, ?_⟩
            · intro hN; rw [List.length_append] at hN; omega
            · intro _
              refine ⟨by omega, ?_⟩
              have e1 : (dst.take q ++ s.take (N - q - 1)).length = N - 1 := by simp; omega
              unfold over
              rw [List.append_assoc (List.take q dst), List.append_assoc (List.take (N - q - 1) s),
                ← List.append_assoc (List.take q dst) (s.take (N - q - 1)), List.take_append_of_le_length (by omega),
                List.take_of_length_le (by omega), ← List.append_assoc, List.take_append_of_le_length (by simp; omega),
                List.take_append, List.take_of_length_le (i := N - 1) (l := List.take q dst) (by simp; omega)]
              congr 2
              rw [List.length_take]; omega
      · rw [if_neg hm, if_neg hm, poke_eq (by omega), Option.bind_some]
        obtain ⟨d2, q2, l2, e1, e2, e3, e4, e5⟩ := substLoop_eq c sub N (b2 :: rest) (over dst q [b]) (q + 1)
          (by rw [over_length (by simp; omega)]; omega) (by omega)
        have ht : (over dst q [b]).take (q + 1) = dst.take q ++ [b] := by
          unfold over
          rw [List.take_append_of_le_length (by simp; omega), List.take_of_length_le (by simp; omega)]
        rw [ht] at e4 e5
        have hl2 : (N : Int) - q - 1 = (N : Int) - ((q + 1 : Nat) : Int) := by omega
        rw [hl2, e1]
        refine ⟨_, _, _, rfl, by rw [e2, over_length (by simp; omega)], by rw [e3, over_drop (by simp; omega) h], ?_, ?_⟩
        · intro hN
          rw [List.length_cons] at hN
          obtain ⟨f1, f2, f3⟩ := e4 (by omega)
          rw [List.length_cons]
          exact ⟨by omega, by omega, by rw [f3]; simp⟩
        · intro hN
          rw [List.length_cons] at hN
          obtain ⟨f1, f2⟩ := e5 (by omega)
          exact ⟨f1, by rw [f2]; simp⟩

/-- C21. Substitution of `%c` in `src` (`sub` NULL counts as the empty text): the result is complete and its length returned, or
it does not fit, -1 is returned and the buffer holds the longest prefix that fits.  Nothing is written after the buffer. -/
theorem C21_substitute (dst src : List UInt8) (n : Nat) (c : UInt8) (sub : Option (List UInt8)) (h : n ≤ dst.length) (h0 : 0 < n)
    (hc : c ≠ 0) (hs : (0 : UInt8) ∉ src) (hr : (0 : UInt8) ∉ sub.getD []) :
    ∃ dst', substituteString dst n src c sub =
        some (dst', if (substAll c (sub.getD []) src).length < n then ((substAll c (sub.getD []) src).length : Int) else -1) ∧
      dst'.length = dst.length ∧ dst'.drop n = dst.drop n ∧ cstr dst' = some ((substAll c (sub.getD []) src).take (n - 1)) := by
  have hz := substAll_nz (c := c) hs hr
  obtain ⟨d1, q1, l1, e1, e2, e3, e4, e5⟩ := substLoop_eq c sub n src dst 0 h (by omega)
  simp only [Nat.zero_add, Int.sub_zero, List.take_zero, List.nil_append, Int.natCast_zero] at e1 e4 e5
  generalize substAll c (sub.getD []) src = out at hz e4 e5 ⊢
  unfold substituteString
  rw [if_neg (by simp [hc]; omega), e1, Option.bind_some]
  dsimp only
  by_cases hN : out.length < n
  · obtain ⟨f1, f2, f3⟩ := e4 hN
    rw [if_pos (by omega), poke_eq (by omega), if_pos hN]
    refine ⟨_, by rw [Option.map_some, f1]; congr 2; omega, by rw [over_length (by simp; omega), e2],
      by rw [over_drop (by simp; omega) (by omega), e3], ?_⟩
    have := cstr_over_at (buf := d1) (a := out) (d := []) (i := q1) f3 hz (by simp)
    rw [List.take_of_length_le (by omega)]
    simpa using this
  · obtain ⟨f1, f2⟩ := e5 (by omega)
    rw [if_neg (by omega), poke_eq (by omega), if_neg hN]
    refine ⟨_, rfl, by rw [over_length (by simp; omega), e2], by rw [over_drop (by simp; omega) (by omega), e3], ?_⟩
    have := cstr_over_at (buf := d1) (a := out.take (n - 1)) (d := []) (i := n - 1) f2
      (fun hm => hz (List.mem_of_mem_take hm)) (by simp)
    simpa using this

example : substituteString (bs "xxxxxxxxxxxx") 10 (bs "a%Nb%%N") 0x4E (some (bs "foo")) = some (bs "afoob%foo" ++ [0] ++ bs "xx", 9) ∧
    substAll 0x4E (bs "foo") (bs "a%Nb%%N") = bs "afoob%foo" ∧
    (substituteString (bs "xxxxxxxxxxxx") 9 (bs "a%Nb%%N") 0x4E (some (bs "foo"))).map (·.2) = some (-1) := by decide

/-! ### C22 -/

theorem isSpace_blank (c : UInt8) : isSpace c = blank c := by
  unfold isSpace blank
  have h : ∀ n : Fin 256, (decide ((UInt8.ofNat n.1) = 0x20) || (decide ((0x09 : UInt8) ≤ UInt8.ofNat n.1) && decide (UInt8.ofNat n.1 ≤ 0x0D))) =
      (decide (UInt8.ofNat n.1 = 0x20) || decide (UInt8.ofNat n.1 = 0x09) || decide (UInt8.ofNat n.1 = 0x0A) || decide (UInt8.ofNat n.1 = 0x0B) ||
        decide (UInt8.ofNat n.1 = 0x0C) || decide (UInt8.ofNat n.1 = 0x0D)) := by decide +kernel
  have := h ⟨c.toNat, c.toNat_lt⟩
  simpa using this

theorem parseQuoted_word (p : UInt8) (hp : blank p = false) (rest : List UInt8) (hr : rest = [] ∨ ∃ c r, rest = c :: r ∧ blank c = true) :
    ∀ (w acc : List UInt8), (∀ a b c, w = a ++ p :: c :: b → blank c = false) →
    parseQuoted p acc (w ++ p :: rest) = .word (acc ++ w) p rest := by
  intro w
  induction w with
  | nil =>
    intro acc _
    rw [List.nil_append, parseQuoted, if_pos, List.append_nil]
    refine ⟨rfl, ?_⟩
    rcases hr with h | ⟨c, r, h, hb⟩
    · exact Or.inl h
    · right; subst h; simpa [isSpace_blank] using hb
  | cons x w ih =>
    intro acc h
    rw [List.cons_append]
    unfold parseQuoted
    have h2 : ¬ (x = p ∧ (w ++ p :: rest = [] ∨ isSpace ((w ++ p :: rest).headD 0) = true)) := by
      rintro ⟨rfl, h3 | h3⟩
      · simp at h3
      · rw [isSpace_blank] at h3
        cases w with
        | nil =>
          simp only [List.nil_append, List.headD_cons] at h3
          simp [hp] at h3
        | cons y w =>
          have := h [] w y rfl
          simp [this] at h3
    rw [if_neg h2, if_neg (by simp), ih _ (fun a b c e => h (x :: a) b c (by rw [e]; rfl))]
    simp

theorem parseQuoted_bad (p : UInt8) : ∀ (t acc : List UInt8), t ≠ [] →
    (∀ a b, t = a ++ p :: b → ∃ c b', b = c :: b' ∧ blank c = false) → parseQuoted p acc t = .bad := by
  intro t
  induction t with
  | nil => intro acc h; exact absurd rfl h
  | cons x t ih =>
    intro acc _ h
    unfold parseQuoted
    have h2 : ¬ (x = p ∧ (t = [] ∨ isSpace (t.headD 0) = true)) := by
      rintro ⟨rfl, h3⟩
      obtain ⟨c, b', e, hc⟩ := h [] t rfl
      subst e
      rcases h3 with h3 | h3
      · simp at h3
      · simp [isSpace_blank, hc] at h3
    rw [if_neg h2]
    by_cases ht : t = []
    · rw [if_pos ht]
    · rw [if_neg ht, ih _ ht (fun a b e => h (x :: a) b (by rw [e]; rfl))]

theorem parseBare_word (rest : List UInt8) : ∀ (w acc : List UInt8), (∀ c ∈ w, blank c = false) →
    parseBare acc w = .word (acc ++ w) 0 [] ∧ ∀ c, blank c = true → parseBare acc (w ++ c :: rest) = .word (acc ++ w) 0 rest := by
  intro w
  induction w with
  | nil =>
    intro acc _
    refine ⟨by simp [parseBare], fun c hc => by simp [parseBare, isSpace_blank, hc]⟩
  | cons x w ih =>
    intro acc h
    have hx : isSpace x = false := by rw [isSpace_blank]; exact h x (by simp)
    obtain ⟨e1, e2⟩ := ih (acc ++ [x]) (fun c hc => h c (by simp [hc]))
    refine ⟨?_, fun c hc => ?_⟩
    · unfold parseBare; simp only [hx, Bool.false_eq_true, if_false]; rw [e1]; simp
    · rw [List.cons_append]; unfold parseBare; simp only [hx, Bool.false_eq_true, if_false]; rw [e2 c hc]; simp

theorem skip_blanks {sp : List UInt8} (h : ∀ c ∈ sp, blank c = true) (t : List UInt8) :
    (sp ++ t).dropWhile isSpace = t.dropWhile isSpace := by
  induction sp with
  | nil => rfl
  | cons x sp ih =>
    have hx : isSpace x = true := by rw [isSpace_blank]; exact h x (by simp)
    rw [List.cons_append, List.dropWhile_cons, if_pos hx, ih (fun c hc => h c (by simp [hc]))]

theorem quote_not_blank {q : UInt8} (h : q = 0x22 ∨ q = 0x27) : blank q = false := by
  rcases h with rfl | rfl <;> decide

theorem parseString_word {sp : List UInt8} (h : ∀ c ∈ sp, blank c = true) {w : Word} (hw : w.ok) (rest : List UInt8)
    (hr : rest = [] ∨ ∃ c r, rest = c :: r ∧ blank c = true) :
    ∃ r', parseString (sp ++ w.text ++ rest) = .word w.value.1 w.value.2 r' ∧ (r' = rest ∨ ∃ c, rest = c :: r' ∧ blank c = true) := by
  rw [List.append_assoc]
  unfold parseString
  rw [skip_blanks h]
  cases w with
  | quoted q w =>
    obtain ⟨hq, hw⟩ := hw
    have hb := quote_not_blank hq
    simp only [Word.text, Word.value, List.cons_append, List.append_assoc]
    rw [List.dropWhile_cons, if_neg (by rw [isSpace_blank, hb]; simp)]
    dsimp only
    rw [if_pos hq, List.nil_append, parseQuoted_word q hb rest hr w [] (fun a b c e => hw a b c e)]
    exact ⟨rest, rfl, Or.inl rfl⟩
  | bare w =>
    obtain ⟨h1, h2, h3, h4⟩ := hw
    cases w with
    | nil => exact absurd rfl h1
    | cons x w =>
      simp only [Word.text, Word.value, List.cons_append]
      rw [List.dropWhile_cons, if_neg (by rw [isSpace_blank, h2 x (by simp)]; simp)]
      dsimp only
      rw [if_neg (by simpa [not_or] using And.intro h3 h4)]
      rcases hr with rfl | ⟨c, r, rfl, hc⟩
      · rw [List.append_nil, (parseBare_word [] w [x] (fun c hc => h2 c (by simp [hc]))).1]
        exact ⟨[], rfl, Or.inl rfl⟩
      · rw [(parseBare_word r w [x] (fun c hc => h2 c (by simp [hc]))).2 c hc]
        exact ⟨r, rfl, Or.inr ⟨c, rfl, hc⟩⟩

theorem parseString_skip {c : UInt8} (hc : blank c = true) (t : List UInt8) : parseString (c :: t) = parseString t := by
  unfold parseString
  have := skip_blanks (sp := [c]) (by simpa using hc) t
  simp only [List.singleton_append] at this
  rw [this]

theorem devArgsLoop_skip (name : List UInt8) {c : UInt8} (hc : blank c = true) (n : Nat) (t : List UInt8) :
    devArgsLoop name n (c :: t) = devArgsLoop name n t := by
  cases n with
  | zero => rfl
  | succ n => unfold devArgsLoop; rw [parseString_skip hc]

theorem devArgsLoop_step {name s w rest : List UInt8} {q : UInt8} (h : parseString s = .word w q rest) {n : Nat} :
    devArgsLoop name (n + 1) s = (devWord name w q).bind (fun a => (devArgsLoop name n rest).map (a :: ·)) := by
  rw [devArgsLoop, h]

theorem devWord_eq (name : List UInt8) (hname : (0 : UInt8) ∉ name) (v : List UInt8) (hv : (0 : UInt8) ∉ v) (q : UInt8) :
    devWord name v q = if q ≠ 0x27 ∧ maxLine ≤ (substAll 0x4E name v).length then none
      else some (if q ≠ 0x27 then substAll 0x4E name v else v) := by
  unfold devWord
  by_cases hq : q ≠ 0x27
  · obtain ⟨d, e1, _, _, e4⟩ := C21_substitute (List.replicate maxLine 0) v maxLine 0x4E (some name) (by simp) (by decide) (by decide) hv
      (by simpa using hname)
    simp only [Option.getD_some] at e1 e4
    rw [if_pos hq, e1, Option.bind_some]
    dsimp only
    by_cases hl : (substAll 0x4E name v).length < maxLine
    · rw [if_pos hl, if_neg (by omega), if_neg (fun h => by omega), e4, List.take_of_length_le (by omega), if_pos hq]
    · rw [if_neg hl, if_pos (by omega), if_pos ⟨hq, by omega⟩]
  · rw [if_neg hq, if_neg (fun h => hq h.1), if_neg hq]

/-- One word of the device string. -/
theorem devArgsLoop_word (name : List UInt8) (hname : (0 : UInt8) ∉ name) {sp : List UInt8} (h : ∀ c ∈ sp, blank c = true) {w : Word} (hw : w.ok)
    (hz : (0 : UInt8) ∉ w.text) (rest : List UInt8) (hr : rest = [] ∨ ∃ c r, rest = c :: r ∧ blank c = true) (n : Nat) :
    devArgsLoop name (n + 1) (sp ++ w.text ++ rest) =
      if w.subst = true ∧ maxLine ≤ (w.arg name).length then none else (devArgsLoop name n rest).map (w.arg name :: ·) := by
  obtain ⟨r', e, hr'⟩ := parseString_word h hw rest hr
  have e2 : devArgsLoop name n r' = devArgsLoop name n rest := by
    rcases hr' with rfl | ⟨c, rfl, hc⟩
    · rfl
    · rw [devArgsLoop_skip name hc]
  have hv : (0 : UInt8) ∉ w.value.1 := by
    cases w with
    | bare w => exact hz
    | quoted q w => simp only [Word.text, List.mem_append, List.mem_cons, not_or] at hz; exact hz.1.2
  rw [devArgsLoop_step e, e2, devWord_eq name hname _ hv]
  have e3 : (w.value.2 ≠ 0x27) = (w.subst = true) := by
    cases w <;> simp [Word.value, Word.subst]
  have e4 : w.arg name = if w.value.2 ≠ 0x27 then substAll 0x4E name w.value.1 else w.value.1 := by
    cases w with
    | bare w => rfl
    | quoted q w => by_cases hq : q = 0x27 <;> simp [Word.value, Word.arg, hq]
  rw [e4]
  by_cases hs : w.value.2 ≠ 0x27
  · rw [if_pos hs]
    by_cases hl : maxLine ≤ (substAll 0x4E name w.value.1).length
    · rw [if_pos ⟨hs, hl⟩, if_pos ⟨e3 ▸ hs, hl⟩]; rfl
    · rw [if_neg (fun h => hl h.2), if_neg (fun h => hl h.2)]; rfl
  · rw [if_neg hs, if_neg (fun h => hs h.1), if_neg (fun h => hs (e3 ▸ h.1))]; rfl

/-- No word becomes too long by substitution. -/
def fits (name : List UInt8) (ws : List Word) : Prop := ∀ w ∈ ws, w.subst = true → (w.arg name).length < maxLine

instance (name : List UInt8) (ws : List Word) : Decidable (fits name ws) := by unfold fits; infer_instance

theorem Word.text_pos {w : Word} (h : w.ok) : 0 < w.text.length := by
  cases w with
  | bare w => exact List.length_pos_iff.2 h.1
  | quoted q w => simp [Word.text]

theorem devArgsLoop_done (name : List UInt8) (n : Nat) {sp : List UInt8} (h : ∀ c ∈ sp, blank c = true) :
    devArgsLoop name (n + 1) sp = some [] := by
  have := skip_blanks h []
  rw [List.append_nil] at this
  unfold devArgsLoop parseString
  rw [this]
  rfl

theorem devArgsLoop_words (name : List UInt8) (hname : (0 : UInt8) ∉ name) {ws : List Word} {s : List UInt8} (h : CmdLine ws s) :
    (0 : UInt8) ∉ s → ∀ n, s.length < n → devArgsLoop name n s = if fits name ws then some (ws.map (·.arg name)) else none := by
  induction h with
  | nil sp hs =>
    intro _ n hn
    cases n with
    | zero => omega
    | succ n => rw [devArgsLoop_done name n hs, if_pos (by simp [fits])]; rfl
  | last sp hs w hw =>
    intro hz n hn
    rw [List.mem_append, not_or] at hz
    rw [List.length_append] at hn
    have := Word.text_pos hw
    match n with
    | 0 => omega
    | 1 => omega
    | n + 2 =>
      have e := devArgsLoop_word name hname hs hw hz.2 [] (Or.inl rfl) (n + 1)
      rw [List.append_nil] at e
      rw [e, devArgsLoop_done name n (by simp)]
      by_cases hl : w.subst = true ∧ maxLine ≤ (w.arg name).length
      · rw [if_pos hl, if_neg]
        intro hf; have := hf w (by simp) hl.1; omega
      · rw [if_neg hl, if_pos]
        · rfl
        · intro w' hw' hs'
          simp only [List.mem_singleton] at hw'
          subst hw'
          simp only [hs', true_and] at hl
          omega
  | cons sp hs w hw c hc ws rest hr ih =>
    intro hz n hn
    simp only [List.mem_append, List.mem_cons, not_or] at hz
    simp only [List.length_append, List.length_cons] at hn
    cases n with
    | zero => omega
    | succ n =>
      rw [devArgsLoop_word name hname hs hw hz.1.2 (c :: rest) (Or.inr ⟨c, rest, rfl, hc⟩) n, devArgsLoop_skip name hc,
        ih hz.2.2 n (by omega)]
      by_cases hl : w.subst = true ∧ maxLine ≤ (w.arg name).length
      · rw [if_pos hl, if_neg]
        intro hf; have := hf w (by simp) hl.1; omega
      · rw [if_neg hl]
        by_cases hf : fits name ws
        · rw [if_pos hf, if_pos]
          · rfl
          · intro w' hw' hs'
            rcases List.mem_cons.1 hw' with rfl | hw'
            · simp only [hs', true_and] at hl; omega
            · exact hf w' hw' hs'
        · rw [if_neg hf, if_neg]
          · rfl
          · intro hf2; exact hf (fun w' hw' => hf2 w' (by simp [hw']))

/-- C22. A device string made of words separated by blanks is split into exactly these words, quoted words kept intact and
without their quotes; `%N` stands for the console name except between single quotes.  It is refused only if an argument does not
fit the buffer after substitution. -/
theorem C22_words (name s : List UInt8) (hname : (0 : UInt8) ∉ name) (hs : (0 : UInt8) ∉ s) (ws : List Word) (h : CmdLine ws s) :
    devArgs name s = if fits name ws then some (ws.map (·.arg name)) else none :=
  devArgsLoop_words name hname h hs _ (by omega)

/-- C22. A string with an unmatched quote is refused.  Partial: the full claim covers a quote that is the last character of the
string, which the code takes as a word (`C22_lone_quote_accepted`). -/
theorem C22_unmatched_partial (name s : List UInt8) (hname : (0 : UInt8) ∉ name) (hs : (0 : UInt8) ∉ s) (h : Unmatched s) :
    devArgs name s = none := by
  have key : ∀ n, s.length < n → devArgsLoop name n s = none := by
    induction h with
    | here sp h q hq t ht hn =>
      intro n hlt
      cases n with
      | zero => rfl
      | succ n =>
        unfold devArgsLoop parseString
        rw [skip_blanks h, List.dropWhile_cons, if_neg (by rw [isSpace_blank, quote_not_blank hq]; simp)]
        dsimp only
        rw [if_pos hq, parseQuoted_bad q t [] ht hn]
    | later sp h w hw c hc rest hr ih =>
      intro n hlt
      simp only [List.mem_append, List.mem_cons, not_or] at hs
      simp only [List.length_append, List.length_cons] at hlt
      cases n with
      | zero => rfl
      | succ n =>
        rw [devArgsLoop_word name hname h hw hs.1.2 (c :: rest) (Or.inr ⟨c, rest, rfl, hc⟩) n, devArgsLoop_skip name hc,
          ih hs.2.2 n (by omega)]
        split <;> rfl
  exact key _ (by omega)

/-- Finding. A quote that is the last character of the string is accepted as an argument. -/
theorem C22_lone_quote_accepted (name s : List UInt8) (hname : (0 : UInt8) ∉ name) (hs : (0 : UInt8) ∉ s) (ws : List Word) (q : UInt8)
    (h : LoneQuote ws q s) : devArgs name s = if fits name ws then some (ws.map (·.arg name) ++ [[q]]) else none := by
  have key : ∀ n, s.length < n → devArgsLoop name n s = if fits name ws then some (ws.map (·.arg name) ++ [[q]]) else none := by
    induction h with
    | here sp h q hq =>
      intro n hlt
      simp only [List.length_append, List.length_singleton] at hlt
      match n with
      | 0 => omega
      | 1 => omega
      | n + 2 =>
        have e : parseString (sp ++ [q]) = .word [q] 0 [] := by
          unfold parseString
          rw [skip_blanks h, List.dropWhile_cons, if_neg (by rw [isSpace_blank, quote_not_blank hq]; simp)]
          dsimp only
          rw [if_pos hq]; rfl
        have e2 := devArgsLoop_done name n (sp := []) (by simp)
        rw [devArgsLoop_step e, e2, devWord_eq name hname [q] (by rcases hq with rfl | rfl <;> decide),
          if_neg (by rintro ⟨_, h⟩; exact absurd h (by simp [substAll, maxLine])), if_pos (by decide : (0 : UInt8) ≠ 0x27),
          if_pos (by simp [fits])]
        rfl
    | later sp h w hw c hc ws q rest hr ih =>
      intro n hlt
      simp only [List.mem_append, List.mem_cons, not_or] at hs
      simp only [List.length_append, List.length_cons] at hlt
      cases n with
      | zero => omega
      | succ n =>
        rw [devArgsLoop_word name hname h hw hs.1.2 (c :: rest) (Or.inr ⟨c, rest, rfl, hc⟩) n, devArgsLoop_skip name hc,
          ih hs.2.2 n (by omega)]
        by_cases hl : w.subst = true ∧ maxLine ≤ (w.arg name).length
        · rw [if_pos hl, if_neg]
          intro hf; have := hf w (by simp) hl.1; omega
        · rw [if_neg hl]
          by_cases hf : fits name ws
          · rw [if_pos hf, if_pos]
            · rfl
            · intro w' hw' hs'
              rcases List.mem_cons.1 hw' with rfl | hw'
              · simp only [hs', true_and] at hl; omega
              · exact hf w' hw' hs'
          · rw [if_neg hf, if_neg]
            · rfl
            · intro hf2; exact hf (fun w' hw' => hf2 w' (by simp [hw']))
  exact key _ (by omega)

/-- Split at the first byte that satisfies `p`. -/
theorem span_first (p : UInt8 → Bool) (t : List UInt8) :
    (∀ c ∈ t, p c = false) ∨ ∃ a c b, t = a ++ c :: b ∧ (∀ x ∈ a, p x = false) ∧ p c = true := by
  induction t with
  | nil => left; simp
  | cons x t ih =>
    cases hx : p x with
    | true => right; exact ⟨[], x, t, rfl, by simp, hx⟩
    | false =>
      rcases ih with h | ⟨a, c, b, rfl, h1, h2⟩
      · left; intro c hc
        rcases List.mem_cons.1 hc with rfl | hc
        · exact hx
        · exact h c hc
      · right
        refine ⟨x :: a, c, b, rfl, ?_, h2⟩
        intro y hy
        rcases List.mem_cons.1 hy with rfl | hy
        · exact hx
        · exact h1 y hy

/-- The first closing quote, if there is one. -/
theorem closing_quote (q : UInt8) (t : List UInt8) :
    (∀ a b, t = a ++ q :: b → ∃ c b', b = c :: b' ∧ blank c = false) ∨
    ∃ w rest, t = w ++ q :: rest ∧ (rest = [] ∨ ∃ c r, rest = c :: r ∧ blank c = true) ∧ (∀ a b c, w = a ++ q :: c :: b → blank c = false) := by
  induction t with
  | nil => left; intro a b e; simp at e
  | cons x t ih =>
    by_cases hc : x = q ∧ (t = [] ∨ ∃ c r, t = c :: r ∧ blank c = true)
    · right; obtain ⟨rfl, h⟩ := hc; exact ⟨[], t, rfl, h, by simp⟩
    · rcases ih with h | ⟨w, rest, rfl, h1, h2⟩
      · left
        intro a b e
        cases a with
        | nil =>
          simp only [List.nil_append, List.cons.injEq] at e
          obtain ⟨rfl, rfl⟩ := e
          cases t with
          | nil => exact absurd ⟨rfl, Or.inl rfl⟩ hc
          | cons c r =>
            refine ⟨c, r, rfl, ?_⟩
            cases hb : blank c with
            | false => rfl
            | true => exact absurd ⟨rfl, Or.inr ⟨c, r, rfl, hb⟩⟩ hc
        | cons y a =>
          simp only [List.cons_append, List.cons.injEq] at e
          exact h a b e.2
      · right
        refine ⟨x :: w, rest, rfl, h1, ?_⟩
        intro a b c e
        cases a with
        | nil =>
          simp only [List.nil_append, List.cons.injEq] at e
          obtain ⟨rfl, rfl⟩ := e
          cases hb : blank c with
          | false => rfl
          | true => exact absurd ⟨rfl, Or.inr ⟨c, _, rfl, hb⟩⟩ hc
        | cons y a =>
          simp only [List.cons_append, List.cons.injEq] at e
          exact h2 a b c e.2

/-- C22. Every string is covered by one of the three theorems above. -/
theorem C22_cases (s : List UInt8) : (∃ ws, CmdLine ws s) ∨ Unmatched s ∨ ∃ ws q, LoneQuote ws q s := by
  rcases span_first (fun c => !blank c) s with h | ⟨sp, p, t, rfl, hsp, hp⟩
  · left; exact ⟨[], .nil s (by simpa using h)⟩
  · simp only [Bool.not_eq_eq_eq_not, Bool.not_false] at hsp hp
    -- after a complete word, continue with the rest
    have next : ∀ (w : Word) (rest : List UInt8), w.ok → (rest = [] ∨ ∃ c r, rest = c :: r ∧ blank c = true) → w.text ++ rest = p :: t →
        (∃ ws, CmdLine ws (sp ++ p :: t)) ∨ Unmatched (sp ++ p :: t) ∨ ∃ ws q, LoneQuote ws q (sp ++ p :: t) := by
      intro w rest hw hr e
      rw [← e]
      rcases hr with rfl | ⟨c, r, rfl, hc⟩
      · left; rw [List.append_nil]; exact ⟨[w], .last sp hsp w hw⟩
      · have : r.length < (sp ++ p :: t).length := by
          rw [← e]; simp; omega
        rw [← List.append_assoc]
        rcases C22_cases r with ⟨ws, h⟩ | h | ⟨ws, q, h⟩
        · left; exact ⟨w :: ws, .cons sp hsp w hw c hc ws r h⟩
        · right; left; exact .later sp hsp w hw c hc r h
        · right; right; exact ⟨w :: ws, q, .later sp hsp w hw c hc ws q r h⟩
    by_cases hq : p = 0x22 ∨ p = 0x27
    · cases t with
      | nil => right; right; exact ⟨[], p, .here sp hsp p hq⟩
      | cons x t =>
        rcases closing_quote p (x :: t) with h | ⟨w, rest, e, h1, h2⟩
        · right; left; exact .here sp hsp p hq (x :: t) (by simp) h
        · exact next (.quoted p w) rest ⟨hq, h2⟩ h1 (by rw [e]; simp [Word.text])
    · rcases span_first blank t with h | ⟨a, c, b, rfl, h1, h2⟩
      · refine next (.bare (p :: t)) [] ⟨by simp, ?_, by simpa using fun h => hq (Or.inl h), by simpa using fun h => hq (Or.inr h)⟩ (Or.inl rfl) (by simp [Word.text])
        intro c hc
        rcases List.mem_cons.1 hc with rfl | hc
        · exact hp
        · exact h c hc
      · refine next (.bare (p :: a)) (c :: b) ⟨by simp, ?_, by simpa using fun h => hq (Or.inl h), by simpa using fun h => hq (Or.inr h)⟩ (Or.inr ⟨c, b, rfl, h2⟩)
          (by simp [Word.text])
        intro y hy
        rcases List.mem_cons.1 hy with rfl | hy
        · exact hp
        · exact h1 y hy
termination_by s.length

example : CmdLine [.bare (bs "run"), .quoted 0x22 (bs "a b%N"), .quoted 0x27 (bs "%N")] (bs " run  \"a b%N\"\t'%N' ") :=
  .cons (bs " ") (by decide) (.bare (bs "run")) (by simp only [Word.ok]; decide) 0x20 (by decide) _ _
    (.cons (bs " ") (by decide) (.quoted 0x22 (bs "a b%N")) ⟨by decide, by
      intro a b c e
      have : (0x22 : UInt8) ∈ bs "a b%N" := by rw [e]; simp
      exact absurd this (by decide)⟩ 0x09 (by decide) _ _
      (.cons [] (by decide) (.quoted 0x27 (bs "%N")) ⟨by decide, by
        intro a b c e
        have : (0x27 : UInt8) ∈ bs "%N" := by rw [e]; simp
        exact absurd this (by decide)⟩ 0x20 (by decide) _ _ (.nil [] (by decide))))

example : devArgs (bs "n1") (bs " run  \"a b%N\"\t'%N' ") = some [bs "run", bs "a bn1", bs "%N"] ∧
    devArgs (bs "n1") (bs "run \"a b") = none ∧ devArgs (bs "n1") (bs "run \"") = some [bs "run", bs "\""] := by decide +kernel

example : Unmatched (bs "run \"a b") :=
  .later [] (by decide) (.bare (bs "run")) (by simp only [Word.ok]; decide) 0x20 (by decide) _
    (.here [] (by decide) 0x22 (by decide) (bs "a b") (by decide) (by
      intro a b e
      have : (0x22 : UInt8) ∈ bs "a b" := by rw [e]; simp
      exact absurd this (by decide)))

end Conman
