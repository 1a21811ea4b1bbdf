import Verif.Model.Tty

/-
Lemmas about flags of terminals.
-/
namespace Conman
open Spec

theorem and_clear {w m f : TWord} (h : f &&& m = f) : w &&& ~~~m &&& f = 0#32 := by
  rw [← h]
  ext i hi
  simp only [BitVec.getElem_and, BitVec.getElem_not, BitVec.getElem_zero]
  cases w[i] <;> cases m[i] <;> cases f[i] <;> rfl

theorem and_keep {w m f : TWord} (h : f &&& m = 0#32) : w &&& ~~~m &&& f = w &&& f := by
  ext i hi
  have := congrArg (fun v : TWord => v[i]) h
  simp only [BitVec.getElem_and, BitVec.getElem_not, BitVec.getElem_zero] at this ⊢
  revert this
  cases w[i] <;> cases m[i] <;> cases f[i] <;> simp

theorem or_keep {w m f : TWord} (h : f &&& m = 0#32) : (w ||| m) &&& f = w &&& f := by
  ext i hi
  have := congrArg (fun v : TWord => v[i]) h
  simp only [BitVec.getElem_and, BitVec.getElem_or, BitVec.getElem_zero] at this ⊢
  revert this
  cases w[i] <;> cases m[i] <;> cases f[i] <;> simp

theorem or_set {w m f : TWord} (h : f &&& m = f) : (w ||| m) &&& f = f := by
  ext i hi
  have := congrArg (fun v : TWord => v[i]) h
  simp only [BitVec.getElem_and, BitVec.getElem_or] at this ⊢
  revert this
  cases w[i] <;> cases m[i] <;> cases f[i] <;> simp

theorem xor_keep {w m f : TWord} (h : f &&& m = 0#32) : (w ^^^ m) &&& f = w &&& f := by
  ext i hi
  have := congrArg (fun v : TWord => v[i]) h
  simp only [BitVec.getElem_and, BitVec.getElem_xor, BitVec.getElem_zero] at this ⊢
  revert this
  cases w[i] <;> cases m[i] <;> cases f[i] <;> simp

theorem on_clear {w m f : TWord} (h : f &&& m = f) : on (w &&& ~~~m) f = false := by
  unfold on; rw [and_clear h]; decide

theorem on_keep {w m f : TWord} (h : f &&& m = 0#32) : on (w &&& ~~~m) f = on w f := by
  unfold on; rw [and_keep h]

theorem on_or {w m f : TWord} (h : f &&& m = 0#32) : on (w ||| m) f = on w f := by
  unfold on; rw [or_keep h]

theorem on_set {w m f : TWord} (h : f &&& m = f) (h0 : f ≠ 0#32) : on (w ||| m) f = true := by
  unfold on; rw [or_set h]; simpa using h0

theorem on_xor {w m f : TWord} (h : f &&& m = 0#32) : on (w ^^^ m) f = on w f := by
  unfold on; rw [xor_keep h]

/-- A flag of one bit. -/
theorem on_toggle_echo (w : TWord) : on (w ^^^ ECHO) ECHO = !on w ECHO := by
  have key : ∀ v : TWord, on v ECHO = v.getLsbD 3 := by
    intro v
    unfold on
    have e : v &&& ECHO = if v.getLsbD 3 then ECHO else 0#32 := by
      apply BitVec.eq_of_getLsbD_eq
      intro i hi
      have hE : ∀ i : Fin 32, (ECHO).getLsbD i.val = decide (i.val = 3) := by decide
      have := hE ⟨i, hi⟩
      simp only at this
      rw [BitVec.getLsbD_and, this]
      by_cases g : i = 3
      · subst g
        cases h : v.getLsbD 3
        · simp
        · simp; decide
      · cases h : v.getLsbD 3
        · simp [g]
        · simp only [g, decide_false, Bool.and_false, if_true]; exact this.trans (by simp [g]) |>.symm
    rw [e]
    cases v.getLsbD 3 <;> decide
  rw [key, key, BitVec.getLsbD_xor]
  have : (ECHO).getLsbD 3 = true := by decide
  rw [this, Bool.xor_true]

/-- What makes a terminal transparent. -/
theorem transparent_of {t : Termios} (h1 : on t.iflag ISTRIP = false) (h2 : on t.iflag IXON = false) (h3 : on t.iflag ICRNL = false) (h4 : on t.iflag IGNCR = false)
    (h5 : on t.iflag INLCR = false) (h6 : on t.iflag PARMRK = false) (h7 : on t.lflag ISIG = false) (h8 : on t.lflag ICANON = false) (h9 : on t.lflag IEXTEN = false) :
    Transparent t := by
  intro x c
  unfold ttyIn stripped lineEnd
  simp [h1, h2, h3, h4, h5, h6, h7, h8, h9]

end Conman
