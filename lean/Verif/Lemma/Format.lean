import Verif.Model.Format
import Verif.Lemma.CStr

namespace Conman
open Spec

theorem sanChar_eq (c : UInt8) : sanChar c = fileChar c := by
  have h : ∀ c : UInt8, (!(isGraph c = false || c = 0x2F)) = fileOk c := by
    intro c
    unfold isGraph fileOk
    have h1 : decide (0x20 < c) = decide (0x21 ≤ c) := by
      rw [decide_eq_decide, UInt8.lt_iff_toNat_lt, UInt8.le_iff_toNat_le]; exact Iff.rfl
    have h2 : decide (c < 0x7F) = decide (c ≤ 0x7E) := by
      rw [decide_eq_decide, UInt8.lt_iff_toNat_lt, UInt8.le_iff_toNat_le]
      exact Nat.lt_succ_iff
    rw [h1, h2]
    cases decide (0x21 ≤ c) <;> cases decide (c ≤ 0x7E) <;> by_cases h3 : c = 0x2F <;> simp [h3]
  have := h c
  unfold sanChar fileChar
  cases hb : (isGraph c = false || c = 0x2F) with
  | true => rw [hb] at this; rw [← this]; rfl
  | false => rw [hb] at this; rw [← this]; rfl

theorem sanMap (s : List UInt8) : s.map sanChar = s.map fileChar := by
  congr 1; funext c; exact sanChar_eq c

theorem lastComponent_none {s : List UInt8} (h : (0x2F : UInt8) ∉ s) : lastComponent s = s := by
  cases s with
  | nil => rfl
  | cons b s => unfold lastComponent; rw [if_neg h]

theorem lastComponent_at (a : List UInt8) {b : List UInt8} (h : (0x2F : UInt8) ∉ b) : lastComponent (a ++ 0x2F :: b) = b := by
  induction a with
  | nil =>
    rw [List.nil_append]; unfold lastComponent
    rw [if_pos (List.mem_cons_self), lastComponent_none h]
  | cons x a ih =>
    rw [List.cons_append]; unfold lastComponent
    rw [if_pos (by simp), ih]

theorem afterSlash_eq (s : List UInt8) : afterSlash s = lastComponent s := by
  by_cases h : (0x2F : UInt8) ∈ s
  · -- split at the last slash
    have : ∀ s : List UInt8, (0x2F : UInt8) ∈ s → ∃ a b, s = a ++ 0x2F :: b ∧ (0x2F : UInt8) ∉ b := by
      intro s
      induction s with
      | nil => intro h; simp at h
      | cons x s ih =>
        intro h
        by_cases hs : (0x2F : UInt8) ∈ s
        · obtain ⟨a, b, e, hb⟩ := ih hs
          exact ⟨x :: a, b, by rw [e, List.cons_append], hb⟩
        · rcases List.mem_cons.1 h with e | e
          · exact ⟨[], s, by rw [← e]; rfl, hs⟩
          · exact absurd e hs
    obtain ⟨a, b, e, hb⟩ := this s h
    rw [e, lastComponent_at a hb]
    unfold afterSlash
    rw [List.reverse_append, List.reverse_cons, List.append_assoc, List.singleton_append, List.takeWhile_append_of_pos (by
      intro x hx; simp only [decide_eq_true_eq]; intro e; rw [e] at hx; exact hb (List.mem_reverse.1 hx)),
      List.takeWhile_cons_of_neg (by simp), List.append_nil, List.reverse_reverse]
  · rw [lastComponent_none h]
    unfold afterSlash
    have : ∀ x ∈ s.reverse, decide (x ≠ 0x2F) = true := by
      intro x hx; simp only [decide_eq_true_eq]; intro e; rw [e] at hx; exact h (List.mem_reverse.1 hx)
    rw [show s.reverse.takeWhile (fun x => decide (x ≠ 0x2F)) = s.reverse from by
      have := List.takeWhile_append_of_pos (l₂ := []) this
      simpa using this, List.reverse_reverse]

/-- A state in the middle of the loop: `out` has been written. -/
def Fmt (size : Nat) (out : List UInt8) (st : FmtSt) : Prop :=
  st.1.length = size ∧ st.1.take out.length = out ∧ st.2.1 = out.length ∧ out.length < size ∧ (st.2.2 > 0 → st.2.2 = size - out.length)

/-- What appending `t` does: it is added if it fits, otherwise `n` is used up. -/
def Puts (size : Nat) (out t : List UInt8) (r : Option FmtSt) : Prop :=
  ∃ st, r = some st ∧ (if out.length + t.length < size then Fmt size (out ++ t) st ∧ st.2.2 > 0 else Fmt size out st ∧ st.2.2 ≤ 0)

theorem over_front {buf out s t : List UInt8} (h1 : buf.take out.length = out) (h2 : out.length + (s ++ t).length ≤ buf.length) :
    (over buf out.length (s ++ t)).take (out ++ s).length = out ++ s := by
  unfold over
  rw [h1]
  simp only [List.length_append, List.append_assoc]
  rw [List.take_append, List.take_of_length_le (by omega), List.take_append_of_le_length (by omega), List.take_of_length_le (by omega)]

theorem over_keeps {buf out s : List UInt8} (h1 : buf.take out.length = out) (h2 : out.length ≤ buf.length) :
    (over buf out.length s).take out.length = out := by rw [over_take h2, h1]

theorem Puts.write {size : Nat} {out t t' : List UInt8} {buf : List UInt8} {d : Nat} {n : Int} (hf : Fmt size out (buf, d, n)) (hn : n > 0)
    (h : out.length + t.length < size) (h' : t'.length ≤ 1) (hw : out.length + (t ++ t').length ≤ size) (n' : Int) (hn' : n' = n - t.length) :
    Fmt size (out ++ t) (over buf d (t ++ t'), d + t.length, n') ∧ n' > 0 := by
  obtain ⟨h1, h2, h3, h4, h5⟩ := hf
  dsimp only at h1 h2 h3 h5
  have := h5 hn
  subst h3
  refine ⟨⟨?_, over_front h2 (by omega), ?_, ?_, ?_⟩, ?_⟩
  · dsimp only; rw [over_length (by omega), h1]
  · dsimp only; rw [List.length_append]
  · rw [List.length_append]; omega
  · intro _; dsimp only; rw [List.length_append]; omega
  · omega

theorem putChar_puts {size : Nat} {out : List UInt8} {st : FmtSt} (hf : Fmt size out st) (hn : st.2.2 > 0) (c : UInt8) : Puts size out [c] (putChar st c) := by
  obtain ⟨buf, d, n⟩ := st
  have ⟨h1, h2, h3, h4, h5⟩ := hf
  dsimp only at h1 h2 h3 h5 hn
  have := h5 hn
  unfold putChar Puts
  dsimp only
  by_cases h : n - 1 > 0
  · rw [if_pos h, poke_eq (by omega), Option.map_some]
    refine ⟨_, rfl, ?_⟩
    rw [if_pos (by simp; omega)]
    have := Puts.write (t := [c]) (t' := []) hf hn (by simp; omega) (by simp) (by simp; omega) (n - 1) (by simp)
    simpa using this
  · rw [if_neg h]
    refine ⟨_, rfl, ?_⟩
    rw [if_neg (by simp; omega)]
    exact ⟨⟨h1, h2, h3, h4, fun hh => absurd hh (by dsimp only; omega)⟩, by dsimp only; omega⟩

theorem putBoth_puts {size : Nat} {out : List UInt8} {st : FmtSt} (hf : Fmt size out st) (hn : st.2.2 > 0) (c : UInt8) : Puts size out [0x25, c] (putBoth st c) := by
  obtain ⟨buf, d, n⟩ := st
  have ⟨h1, h2, h3, h4, h5⟩ := hf
  dsimp only at h1 h2 h3 h5 hn
  have := h5 hn
  unfold putBoth Puts
  dsimp only
  by_cases h : n - 2 > 0
  · rw [if_pos h, pokes_eq _ (by simp; omega), Option.map_some]
    refine ⟨_, rfl, ?_⟩
    rw [if_pos (by simp; omega)]
    have := Puts.write (t := [0x25, c]) (t' := []) hf hn (by simp; omega) (by simp) (by simp; omega) (n - 2) (by simp)
    simpa using this
  · rw [if_neg h]
    refine ⟨_, rfl, ?_⟩
    rw [if_neg (by simp; omega)]
    exact ⟨⟨h1, h2, h3, h4, fun hh => absurd hh (by dsimp only; omega)⟩, by dsimp only; omega⟩

theorem putCopy_puts {size : Nat} {out : List UInt8} {st : FmtSt} (hf : Fmt size out st) (hn : st.2.2 > 0) (p : List UInt8) :
    Puts size out (p.map fileChar) (putCopy st p) := by
  obtain ⟨buf, d, n⟩ := st
  have ⟨h1, h2, h3, h4, h5⟩ := hf
  dsimp only at h1 h2 h3 h5 hn
  have := h5 hn
  unfold putCopy Puts
  dsimp only
  rw [sanMap]
  by_cases h : n - p.length > 0
  · rw [if_pos h, pokes_eq _ (by simp; omega), Option.map_some]
    refine ⟨_, rfl, ?_⟩
    rw [if_pos (by simp; omega)]
    have := Puts.write (t := p.map fileChar) (t' := [0]) hf hn (by simp; omega) (by simp) (by simp; omega) (n - p.length) (by simp)
    simpa using this
  · rw [if_neg h]
    refine ⟨_, rfl, ?_⟩
    rw [if_neg (by simp; omega)]
    exact ⟨⟨h1, h2, h3, h4, fun hh => absurd hh (by dsimp only; omega)⟩, by dsimp only; omega⟩

theorem putPrint_puts {size : Nat} {out : List UInt8} {st : FmtSt} (hf : Fmt size out st) (hn : st.2.2 > 0) (san : Bool) (s : List UInt8) :
    Puts size out (if san then s.map fileChar else s) (putPrint st san s) := by
  obtain ⟨buf, d, n⟩ := st
  have ⟨h1, h2, h3, h4, h5⟩ := hf
  dsimp only at h1 h2 h3 h5 hn
  have := h5 hn
  have hlen : (if san then s.map fileChar else s).length = s.length := by split <;> simp
  unfold putPrint Puts
  dsimp only
  rw [snprintf_eq (by omega) (by omega), Option.bind_some, hlen]
  dsimp only
  by_cases h : (s.length : Int) ≥ n
  · rw [if_pos h]
    refine ⟨_, rfl, ?_⟩
    rw [if_neg (by omega)]
    subst h3
    refine ⟨⟨?_, over_keeps h2 (by omega), rfl, h4, fun hh => absurd hh (by dsimp only; omega)⟩, by dsimp only; omega⟩
    dsimp only
    rw [over_length (by simp; omega), h1]
  · rw [if_neg h]
    have hlt : out.length + s.length < size := by omega
    have htake : s.take (n.toNat - 1) = s := List.take_of_length_le (by omega)
    rw [htake]
    cases san with
    | false =>
      simp only [Bool.false_eq_true, if_false, Option.map_some]
      refine ⟨_, rfl, ?_⟩
      rw [if_pos hlt]
      exact Puts.write (t := s) (t' := [0]) hf hn (by omega) (by simp) (by simp; omega) (n - s.length) rfl
    | true =>
      simp only [if_true]
      rw [sanMap, pokes_eq _ (by rw [over_length (by simp; omega), List.length_map]; omega), Option.map_some]
      refine ⟨_, rfl, ?_⟩
      rw [if_pos hlt]
      have hw := (Puts.write (t := s) (t' := [0]) hf hn (by omega) (by simp) (by simp; omega) (n - s.length) rfl).1
      have hf2 : Fmt size out (over buf d (s ++ [0]), d, n) := by
        subst h3
        exact ⟨by dsimp only; rw [over_length (by simp; omega), h1], over_keeps h2 (by omega), rfl, h4, h5⟩
      have := Puts.write (t := s.map fileChar) (t' := []) hf2 hn (by simp; omega) (by simp) (by simp; omega) (n - s.length) (by simp)
      simpa using this

theorem putTime_puts {size : Nat} {out : List UInt8} {st : FmtSt} (hf : Fmt size out st) (hn : st.2.2 > 0) {s : List UInt8} (hs : s ≠ []) :
    Puts size out s (putTime st s) := by
  obtain ⟨buf, d, n⟩ := st
  have ⟨h1, h2, h3, h4, h5⟩ := hf
  dsimp only at h1 h2 h3 h5 hn
  have := h5 hn
  unfold putTime Puts
  dsimp only
  by_cases h : (s.length : Int) + 1 ≤ n
  · rw [if_pos ⟨h, hs⟩, pokes_eq _ (by simp; omega), Option.map_some]
    refine ⟨_, rfl, ?_⟩
    rw [if_pos (by omega)]
    exact Puts.write (t := s) (t' := [0]) hf hn (by omega) (by simp) (by simp; omega) (n - s.length) rfl
  · rw [if_neg (fun hh => h hh.1)]
    refine ⟨_, rfl, ?_⟩
    rw [if_neg (by omega)]
    exact ⟨⟨h1, h2, h3, h4, fun hh => absurd hh (by dsimp only; omega)⟩, by dsimp only; omega⟩

theorem puts_nil {size : Nat} {out : List UInt8} {st : FmtSt} (hf : Fmt size out st) (hn : st.2.2 > 0) : Puts size out [] (some st) := by
  refine ⟨_, rfl, ?_⟩
  rw [if_pos (by simp; exact hf.2.2.2.1), List.append_nil]
  exact ⟨hf, hn⟩

theorem fmtSpec_puts {size : Nat} {out : List UInt8} {st : FmtSt} {o : Option FObj} {pid : Int} {tm : UInt8 → List UInt8} (htm : ∀ c ∈ timeLetters, tm c ≠ [])
    (hf : Fmt size out st) (hn : st.2.2 > 0) (c : UInt8) : Puts size out (specifier o pid tm c) (fmtSpec o pid tm st c) := by
  unfold specifier fmtSpec
  split
  · cases o with
    | none => exact putBoth_puts hf hn c
    | some o =>
      dsimp only
      split
      · exact putCopy_puts hf hn _
      · exact puts_nil hf hn
  · split
    · cases o with
      | none => exact putBoth_puts hf hn c
      | some o =>
        dsimp only
        cases o.dev with
        | path dev => dsimp only; rw [afterSlash_eq]; exact putCopy_puts hf hn _
        | telnet host port => exact putPrint_puts hf hn true _
        | other => exact puts_nil hf hn
    · split
      · exact putPrint_puts hf hn false _
      · split
        · rename_i hc; exact putTime_puts hf hn (htm c hc)
        · split
          · rename_i hc; rw [hc]; exact putChar_puts hf hn _
          · exact putBoth_puts hf hn c

/-- The whole loop. -/
theorem fmtLoop_done {o : Option FObj} {pid : Int} {tm : UInt8 → List UInt8} {st : FmtSt} (hn : st.2.2 ≤ 0) : ∀ fmt, fmtLoop o pid tm st fmt = some st
  | [] => by unfold fmtLoop; rfl
  | [c] => by unfold fmtLoop; rw [if_neg (by omega)]
  | c :: c2 :: s => by unfold fmtLoop; rw [if_neg (by omega)]

theorem fmtLoop_puts {size : Nat} {o : Option FObj} {pid : Int} {tm : UInt8 → List UInt8} (htm : ∀ c ∈ timeLetters, tm c ≠ []) :
    ∀ (fmt : List UInt8) {out : List UInt8} {st : FmtSt}, Fmt size out st → st.2.2 > 0 → loneEnd fmt = false →
    ∃ st' k, fmtLoop o pid tm st fmt = some st' ∧ (if out.length + (expand o pid tm fmt).length < size then k = (expand o pid tm fmt).length ∧ st'.2.2 > 0 else st'.2.2 ≤ 0) ∧
      Fmt size (out ++ (expand o pid tm fmt).take k) st'
  | [], out, st, hf, hn, _ => by
    refine ⟨st, 0, by unfold fmtLoop; rfl, ?_, ?_⟩
    · rw [if_pos (by simp [expand]; exact hf.2.2.2.1)]; exact ⟨rfl, hn⟩
    · simpa using hf
  | [c], out, st, hf, hn, hl => by
    have hc : c ≠ 0x25 := by simpa [loneEnd] using hl
    obtain ⟨st', e, h⟩ := putChar_puts hf hn c
    have hx : expand o pid tm [c] = [c] := rfl
    rw [hx]
    refine ⟨st', if out.length + [c].length < size then 1 else 0, by unfold fmtLoop; rw [if_pos hn, if_pos hc, e], ?_⟩
    split at h
    · rename_i hlt; rw [if_pos hlt, if_pos hlt]; exact ⟨⟨rfl, h.2⟩, h.1⟩
    · rename_i hlt; rw [if_neg hlt, if_neg hlt]; exact ⟨h.2, by simpa using h.1⟩
  | c :: c2 :: s, out, st, hf, hn, hl => by
    by_cases hc : c = 0x25
    · have hx : expand o pid tm (c :: c2 :: s) = specifier o pid tm c2 ++ expand o pid tm s := by rw [expand]; rw [if_pos hc]
      have hl' : loneEnd s = false := by rw [loneEnd] at hl; rw [if_pos hc] at hl; exact hl
      obtain ⟨st1, e, h⟩ := fmtSpec_puts (o := o) (pid := pid) htm hf hn c2
      rw [fmtLoop]
      rw [if_pos hn, if_neg (not_not_intro hc), e, Option.bind_some, hx]
      split at h
      · rename_i hlt
        obtain ⟨st', k, e2, h2, h3⟩ := fmtLoop_puts htm s h.1 h.2 hl'
        refine ⟨st', (specifier o pid tm c2).length + k, e2, ?_, ?_⟩
        · simp only [List.length_append] at h2 ⊢
          split at h2
          · rename_i hlt2; rw [if_pos (by omega)]; exact ⟨by omega, h2.2⟩
          · rename_i hlt2; rw [if_neg (by omega)]; exact h2
        · rw [List.take_append, List.take_of_length_le (by omega), Nat.add_sub_cancel_left, ← List.append_assoc]; exact h3
      · rename_i hlt
        refine ⟨st1, 0, fmtLoop_done h.2 s, ?_, by simpa using h.1⟩
        rw [if_neg (by simp only [List.length_append]; omega)]; exact h.2
    · have hx : expand o pid tm (c :: c2 :: s) = c :: expand o pid tm (c2 :: s) := by rw [expand]; rw [if_neg hc]
      have hl' : loneEnd (c2 :: s) = false := by rw [loneEnd] at hl; rw [if_neg hc] at hl; exact hl
      obtain ⟨st1, e, h⟩ := putChar_puts hf hn c
      rw [fmtLoop]
      rw [if_pos hn, if_pos hc, e, Option.bind_some, hx]
      split at h
      · rename_i hlt
        obtain ⟨st', k, e2, h2, h3⟩ := fmtLoop_puts htm (c2 :: s) h.1 h.2 hl'
        refine ⟨st', k + 1, e2, ?_, ?_⟩
        · simp only [List.length_append, List.length_cons, List.length_nil] at h2 ⊢
          split at h2
          · rename_i hlt2; rw [if_pos (by omega)]; exact ⟨by omega, h2.2⟩
          · rename_i hlt2; rw [if_neg (by omega)]; exact h2
        · rw [List.take_succ_cons]; simpa using h3
      · rename_i hlt
        refine ⟨st1, 0, fmtLoop_done h.2 _, ?_, by simpa using h.1⟩
        simp only [List.length_cons, List.length_nil] at hlt
        rw [if_neg (by simp only [List.length_cons]; omega)]; exact h.2

end Conman
