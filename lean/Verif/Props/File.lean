import Verif.Lemma.CStr
import Verif.Model.File
import Verif.Spec.File

/-
C24-C26, C66: files, lines, directory names.
-/
namespace Conman
open Spec

/-! ### C25 -/

theorem readN_gen (n : Nat) : ∀ (sched : List Sys) (data acc : List UInt8) (nleft : Nat), acc.length + nleft = n →
    ∃ got rest, data = got ++ rest ∧ got.length ≤ nleft ∧ (readN n sched data acc nleft).stored = acc ++ got ∧ (readN n sched data acc nleft).rest = rest ∧
      ((∃ m, (readN n sched data acc nleft).fin = .ret m) → (readN n sched data acc nleft).fin = .ret (acc ++ got).length ∧ got.length = min nleft data.length) ∧
      ((readN n sched data acc nleft).fin = .err → Sys.fail ∈ sched) ∧
      (Sys.fail ∉ sched → min nleft data.length < (sched.filter (· ≠ .intr)).length → ∃ m, (readN n sched data acc nleft).fin = .ret m) := by
  intro sched
  induction sched with
  | nil =>
    intro data acc nleft h
    cases nleft with
    | zero => exact ⟨[], data, rfl, by simp, by simp [readN], by simp [readN], fun _ => by simp [readN]; omega, by simp [readN], fun _ _ => ⟨_, rfl⟩⟩
    | succ k => exact ⟨[], data, rfl, by simp, by simp [readN], by simp [readN], by simp [readN], by simp [readN], by simp⟩
  | cons e sched ih =>
    intro data acc nleft h
    cases nleft with
    | zero =>
      refine ⟨[], data, rfl, by simp, by simp [readN], by simp [readN], fun _ => by simp [readN]; omega, by simp [readN], fun _ _ => ⟨n, by simp [readN]⟩⟩
    | succ nl =>
      cases e with
      | intr =>
        obtain ⟨got, rest, h1, h2, h3, h4, h5, h6, h7⟩ := ih data acc (nl + 1) h
        rw [readN]
        refine ⟨got, rest, h1, h2, h3, h4, h5, fun g => by simp [h6 g], fun g1 g2 => h7 (by simpa using g1) (by simpa using g2)⟩
      | fail =>
        rw [readN]
        exact ⟨[], data, rfl, by simp, by simp, rfl, by simp, by simp, fun g => by simp at g⟩
      | upto k =>
        rw [readN]
        by_cases hg : (data.take (min (k + 1) (nl + 1))).length = 0
        · rw [if_pos hg]
          have hd : data = [] := by
            rw [List.length_take] at hg
            exact List.length_eq_zero_iff.1 (by omega)
          subst hd
          refine ⟨[], [], rfl, by simp, by simp, rfl, fun _ => ?_, by simp, fun _ _ => ⟨_, rfl⟩⟩
          simp; omega
        · rw [if_neg hg]
          generalize hgot : data.take (min (k + 1) (nl + 1)) = got0 at hg
          have hlen : got0.length ≤ nl + 1 := by rw [← hgot, List.length_take]; omega
          have hdat : data = got0 ++ data.drop got0.length := by
            conv => lhs; rw [← List.take_append_drop got0.length data]
            congr 1
            rw [← hgot, List.length_take, List.take_eq_take_iff]
            omega
          have hle : got0.length ≤ data.length := by
            have := congrArg List.length hdat
            simp at this; omega
          obtain ⟨got, rest, h1, h2, h3, h4, h5, h6, h7⟩ := ih (data.drop got0.length) (acc ++ got0) (nl + 1 - got0.length) (by simp; omega)
          refine ⟨got0 ++ got, rest, by rw [List.append_assoc, ← h1]; exact hdat, by simp; omega, by rw [h3]; simp, h4, fun g => ?_, fun g => by simp [h6 g], fun g1 g2 => ?_⟩
          · obtain ⟨g1, g2⟩ := h5 g
            refine ⟨by rw [g1]; simp, ?_⟩
            rw [List.length_append, g2, List.length_drop]
            omega
          · refine h7 (by simp at g1; exact g1) ?_
            rw [List.filter_cons] at g2
            simp only [ne_eq, reduceCtorEq, not_false_eq_true, decide_true, if_true, List.length_cons] at g2
            rw [List.length_drop]
            have : (sched.filter (fun x => decide ¬ x = Sys.intr)).length = (sched.filter (· ≠ .intr)).length := rfl
            omega

/-- C25. `read_n` stores the next bytes of the stream, no more than asked for; it returns their number, which is `n` unless the
stream ended before; an error result needs a failed call; it does return once enough calls were answered. -/
theorem C25_read (n : Nat) (sched : List Sys) (data : List UInt8) :
    (readN n sched data [] n).stored ++ (readN n sched data [] n).rest = data ∧ (readN n sched data [] n).stored.length ≤ n ∧
    (∀ m, (readN n sched data [] n).fin = .ret m → m = min n data.length ∧ (readN n sched data [] n).stored = data.take n) ∧
    ((readN n sched data [] n).fin = .err → Sys.fail ∈ sched) ∧
    (Sys.fail ∉ sched → min n data.length < (sched.filter (· ≠ .intr)).length → (readN n sched data [] n).fin = .ret (min n data.length)) := by
  obtain ⟨got, rest, h1, h2, h3, h4, h5, h6, h7⟩ := readN_gen n sched data [] n (by simp)
  simp only [List.nil_append] at h3 h5
  refine ⟨by rw [h3, h4, ← h1], by rw [h3]; exact h2, fun m hm => ?_, h6, fun g1 g2 => ?_⟩
  · obtain ⟨e1, e2⟩ := h5 ⟨m, hm⟩
    rw [hm] at e1
    simp only [IOEnd.ret.injEq] at e1
    refine ⟨by omega, ?_⟩
    rw [h3, h1]
    have hl : data.length = got.length + rest.length := by rw [h1]; simp
    by_cases g : n ≤ data.length
    · rw [List.take_append_of_le_length (by omega), List.take_of_length_le (by omega)]
    · have : rest = [] := List.length_eq_zero_iff.1 (by omega)
      subst this
      rw [List.append_nil, List.take_of_length_le (by omega)]
  · obtain ⟨m, hm⟩ := h7 g1 g2
    obtain ⟨e1, e2⟩ := h5 ⟨m, hm⟩
    rw [e1, e2]

theorem writeN_gen (n : Nat) : ∀ (sched : List Sys) (p acc : List UInt8),
    ∃ done left, p = done ++ left ∧ (writeN n sched p acc).2 = acc ++ done ∧
      (∀ m, (writeN n sched p acc).1 = .ret m → m = n ∧ left = []) ∧ ((writeN n sched p acc).1 = .err → Sys.fail ∈ sched) ∧
      (Sys.fail ∉ sched → p.length ≤ (sched.filter (fun e => e ≠ .intr && e ≠ .upto 0)).length → (writeN n sched p acc).1 = .ret n) := by
  intro sched
  induction sched with
  | nil =>
    intro p acc
    cases p with
    | nil => exact ⟨[], [], rfl, by simp [writeN], fun m h => by simp [writeN] at h; exact ⟨h.symm, rfl⟩, by simp [writeN], by simp [writeN]⟩
    | cons b p => exact ⟨[], b :: p, rfl, by simp [writeN], by simp [writeN], by simp [writeN], by simp⟩
  | cons e sched ih =>
    intro p acc
    cases p with
    | nil => exact ⟨[], [], rfl, by simp [writeN], fun m h => by simp [writeN] at h; exact ⟨h.symm, rfl⟩, by simp [writeN], by simp [writeN]⟩
    | cons b p =>
      cases e with
      | intr =>
        obtain ⟨d, l, h1, h2, h3, h4, h5⟩ := ih (b :: p) acc
        rw [writeN]
        exact ⟨d, l, h1, h2, h3, fun g => by simp [h4 g], fun g1 g2 => h5 (by simpa using g1) (by simpa using g2)⟩
      | fail =>
        rw [writeN]
        exact ⟨[], b :: p, rfl, by simp, by simp, by simp, fun g => by simp at g⟩
      | upto k =>
        obtain ⟨d, l, h1, h2, h3, h4, h5⟩ := ih ((b :: p).drop k) (acc ++ (b :: p).take k)
        rw [writeN]
        refine ⟨(b :: p).take k ++ d, l, by rw [List.append_assoc, ← h1, List.take_append_drop], by rw [h2]; simp, h3, fun g => by simp [h4 g],
          fun g1 g2 => h5 (by simp at g1; exact g1) ?_⟩
        rw [List.length_drop]
        cases k with
        | zero => simpa using g2
        | succ k =>
          rw [List.filter_cons] at g2
          simp only [List.length_cons] at g2 ⊢
          simp at g2
          simp
          omega

/-- C25. `write_n` writes a prefix of the buffer, all of it if it returns a number, and returns `n`; an error result needs a failed call;
it does return once enough calls made progress. -/
theorem C25_write (buf : List UInt8) (sched : List Sys) :
    (∃ left, buf = (writeN buf.length sched buf []).2 ++ left) ∧
    (∀ m, (writeN buf.length sched buf []).1 = .ret m → m = buf.length ∧ (writeN buf.length sched buf []).2 = buf) ∧
    ((writeN buf.length sched buf []).1 = .err → Sys.fail ∈ sched) ∧
    (Sys.fail ∉ sched → buf.length ≤ (sched.filter (fun e => e ≠ .intr && e ≠ .upto 0)).length → (writeN buf.length sched buf []).1 = .ret buf.length) := by
  obtain ⟨d, l, h1, h2, h3, h4, h5⟩ := writeN_gen buf.length sched buf []
  simp only [List.nil_append] at h2
  refine ⟨⟨l, by rw [h2]; exact h1⟩, fun m hm => ?_, h4, h5⟩
  obtain ⟨e, rfl⟩ := h3 m hm
  exact ⟨e, by rw [h2]; simpa using h1.symm⟩

example : readN 4 [.intr, .upto 0, .intr, .upto 9, .upto 1] (bs "abcdef") [] 4 = { fin := .ret 4, stored := bs "abcd", rest := bs "ef" } ∧
    readN 4 [.upto 2, .upto 5] (bs "ab") [] 4 = { fin := .ret 2, stored := bs "ab", rest := [] } ∧
    writeN 3 [.upto 1, .intr, .upto 0, .upto 7] (bs "abc") [] = (.ret 3, bs "abc") ∧
    writeN 3 [.upto 1, .fail] (bs "abc") [] = (.err, bs "a") := by decide

/-! ### C26 -/

theorem firstLine_cons_ne {c : UInt8} (h : c ≠ 0x0A) (s : List UInt8) : firstLine (c :: s) = c :: firstLine s := by rw [firstLine, if_neg h]

theorem readLineLoop_gen : ∀ (sched : List Sys) (data pre post : List UInt8) (left : Nat), left < post.length →
    ∃ r, readLineLoop sched data (pre ++ post) pre.length left = some r ∧ r.buf.length = (pre ++ post).length ∧
      r.buf.drop (pre.length + left + 1) = (pre ++ post).drop (pre.length + left + 1) ∧
      (∀ m, r.fin = .ret m → m = pre.length + ((firstLine data).take left).length ∧ r.rest = data.drop ((firstLine data).take left).length ∧
        (m = 0 ∧ 0 < left ∧ r.buf = pre ++ post ∨ r.buf.take (m + 1) = pre ++ (firstLine data).take left ++ [0] ∧ (0 < m ∨ left = 0))) ∧
      (r.fin = .err → Sys.fail ∈ sched) ∧
      (Sys.fail ∉ sched → min left (data.length + 1) ≤ (sched.filter (· ≠ .intr)).length → ∃ m, r.fin = .ret m) := by
  intro sched
  have overEq : ∀ (pre post : List UInt8) (x : UInt8) (h : 0 < post.length), over (pre ++ post) pre.length [x] = (pre ++ [x]) ++ post.drop 1 := by
    intro pre post x h
    unfold over
    simp [List.drop_append]
  have pokeEq : ∀ (pre post : List UInt8) (x : UInt8) (h : 0 < post.length), poke (pre ++ post) pre.length x = some ((pre ++ [x]) ++ post.drop 1) := by
    intro pre post x h
    rw [poke_eq (by rw [List.length_append]; omega), overEq pre post x h]
  have tk : ∀ (pre q : List UInt8) (x : UInt8), (pre ++ [x] ++ q).take (pre.length + 1) = pre ++ [x] := by
    intro pre q x
    rw [List.take_append_of_le_length (by simp), List.take_of_length_le (by simp)]
  have dr : ∀ (pre post : List UInt8) (x : UInt8) (k : Nat), 0 < post.length → (pre ++ [x] ++ post.drop 1).drop (pre.length + k + 1) = (pre ++ post).drop (pre.length + k + 1) := by
    intro pre post x k h
    cases post with
    | nil => simp at h
    | cons y post =>
      have e : pre.length + k + 1 = pre.length + (k + 1) := by omega
      rw [e, List.append_assoc, List.drop_length_add_append, List.drop_length_add_append]
      simp
  induction sched with
  | nil =>
    intro data pre post left h
    cases left with
    | zero =>
      rw [readLineLoop, pokeEq pre post 0 h]
      refine ⟨_, rfl, by simp; omega, dr pre post 0 0 h, fun m hm => ?_, by simp, fun _ _ => ⟨_, rfl⟩⟩
      simp only [IOEnd.ret.injEq] at hm
      subst hm
      exact ⟨by simp, by simp, Or.inr ⟨by rw [tk]; simp, Or.inr rfl⟩⟩
    | succ k =>
      rw [readLineLoop]
      exact ⟨_, rfl, rfl, rfl, by simp, by simp, fun _ g => by simp at g⟩
  | cons e sched ih =>
    intro data pre post left h
    cases left with
    | zero =>
      rw [readLineLoop, pokeEq pre post 0 h]
      refine ⟨_, rfl, by simp; omega, dr pre post 0 0 h, fun m hm => ?_, by simp, fun _ _ => ⟨_, rfl⟩⟩
      simp only [IOEnd.ret.injEq] at hm
      subst hm
      exact ⟨by simp, by simp, Or.inr ⟨by rw [tk]; simp, Or.inr rfl⟩⟩
    | succ k =>
      cases e with
      | intr =>
        obtain ⟨r, h1, h2, h3, h4, h5, h6⟩ := ih data pre post (k + 1) h
        rw [readLineLoop]
        exact ⟨r, h1, h2, h3, h4, fun g => by simp [h5 g], fun g1 g2 => h6 (by simpa using g1) (by simpa using g2)⟩
      | fail =>
        rw [readLineLoop]
        exact ⟨_, rfl, rfl, rfl, by simp, by simp, fun g => by simp at g⟩
      | upto u =>
        have hp : 0 < post.length := by omega
        cases data with
        | nil =>
          rw [readLineLoop]
          by_cases h0 : pre.length = 0
          · rw [if_pos h0]
            refine ⟨_, rfl, rfl, rfl, fun m hm => ?_, by simp, fun _ _ => ⟨_, rfl⟩⟩
            simp only [IOEnd.ret.injEq] at hm
            subst hm
            exact ⟨by simp [firstLine, h0], by simp, Or.inl ⟨rfl, by omega, rfl⟩⟩
          · rw [if_neg h0, pokeEq pre post 0 hp]
            refine ⟨_, rfl, by simp; omega, dr pre post 0 (k + 1) hp, fun m hm => ?_, by simp, fun _ _ => ⟨_, rfl⟩⟩
            simp only [IOEnd.ret.injEq] at hm
            subst hm
            exact ⟨by simp [firstLine], by simp, Or.inr ⟨by rw [tk]; simp [firstLine], Or.inl (by omega)⟩⟩
        | cons c data =>
          rw [readLineLoop, pokeEq pre post c hp, Option.bind_some]
          have hl1 : 0 < (post.drop 1).length := by simp; omega
          by_cases hc : c = 0x0A
          · rw [if_pos hc]
            have := pokeEq (pre ++ [c]) (post.drop 1) 0 hl1
            simp only [List.length_append, List.length_singleton] at this
            rw [this]
            have hfl : (firstLine (c :: data)).take (k + 1) = [c] := by rw [firstLine, if_pos hc]; simp
            refine ⟨_, rfl, by simp; omega, ?_, fun m hm => ?_, by simp, fun _ _ => ⟨_, rfl⟩⟩
            · have e1 := dr (pre ++ [c]) (post.drop 1) 0 k hl1
              have e2 := dr pre post c (k + 1) hp
              simp only [List.length_append, List.length_singleton] at e1
              have : pre.length + 1 + k + 1 = pre.length + (k + 1) + 1 := by omega
              rw [this] at e1
              dsimp only
              rw [e1, e2]
            · simp only [IOEnd.ret.injEq] at hm
              subst hm
              rw [hfl]
              refine ⟨by simp, by simp, Or.inr ⟨?_, Or.inl (by omega)⟩⟩
              have := tk (pre ++ [c]) ((post.drop 1).drop 1) 0
              simp only [List.length_append, List.length_singleton] at this
              exact this
          · rw [if_neg hc]
            obtain ⟨r, h1, h2, h3, h4, h5, h6⟩ := ih data (pre ++ [c]) (post.drop 1) k (by simp; omega)
            simp only [List.length_append, List.length_singleton] at h1 h2 h3 h4 h5 h6
            refine ⟨r, h1, by rw [h2]; simp; omega, ?_, fun m hm => ?_, fun g => by simp [h5 g], fun g1 g2 => h6 (by simp at g1; exact g1) ?_⟩
            · have e2 := dr pre post c (k + 1) hp
              have : pre.length + 1 + k + 1 = pre.length + (k + 1) + 1 := by omega
              rw [this] at h3
              rw [h3, e2]
            · obtain ⟨g1, g2, g3⟩ := h4 m hm
              rw [firstLine_cons_ne hc, List.take_succ_cons]
              refine ⟨by rw [g1]; simp; omega, by rw [g2]; simp, ?_⟩
              rcases g3 with ⟨g3, _⟩ | ⟨g3, _⟩
              · omega
              · exact Or.inr ⟨by rw [g3]; simp, Or.inl (by omega)⟩
            · rw [List.filter_cons] at g2
              simp only [ne_eq, reduceCtorEq, not_false_eq_true, decide_true, if_true, List.length_cons] at g2
              have : (sched.filter (fun x => decide ¬ x = Sys.intr)).length = (sched.filter (· ≠ .intr)).length := rfl
              omega

/-- C26. `read_line` into an array of at least `maxlen` bytes never stores outside the first `maxlen`.  A positive result `m` is the
number of bytes read from the stream: the first line, or its first `maxlen - 1` bytes, stored with a NUL behind it.  Result 0 (for
`maxlen` at least 2) means the stream is at its end, and nothing is stored. -/
theorem C26_read_line (sched : List Sys) (data buf : List UInt8) (maxlen : Nat) (h2 : 2 ≤ maxlen) (h : maxlen ≤ buf.length) :
    ∃ r, readLine sched data buf maxlen = some r ∧ r.buf.length = buf.length ∧ r.buf.drop maxlen = buf.drop maxlen ∧
      (∀ m, r.fin = .ret m → m = ((firstLine data).take (maxlen - 1)).length ∧ r.rest = data.drop m ∧
        (m = 0 → data = [] ∧ r.buf = buf) ∧ (0 < m → r.buf.take (m + 1) = (firstLine data).take (maxlen - 1) ++ [0])) ∧
      (r.fin = .err → Sys.fail ∈ sched) ∧
      (Sys.fail ∉ sched → min (maxlen - 1) (data.length + 1) ≤ (sched.filter (· ≠ .intr)).length → ∃ m, r.fin = .ret m) := by
  unfold readLine
  rw [if_neg (by omega)]
  obtain ⟨r, h1, h2, h3, h4, h5, h6⟩ := readLineLoop_gen sched data [] buf (maxlen - 1) (by omega)
  simp only [List.nil_append, List.length_nil, Nat.zero_add] at h1 h2 h3 h4 h5 h6
  have e : maxlen - 1 + 1 = maxlen := by omega
  rw [e] at h3
  refine ⟨r, h1, h2, h3, fun m hm => ?_, h5, h6⟩
  obtain ⟨g1, g2, g3⟩ := h4 m hm
  refine ⟨g1, by rw [g1]; exact g2, fun h0 => ?_, fun h0 => ?_⟩
  · refine ⟨?_, ?_⟩
    · cases data with
      | nil => rfl
      | cons c s =>
        exfalso
        rw [h0, firstLine] at g1
        have : 0 < maxlen - 1 := by omega
        by_cases hc : c = 0x0A
        · rw [if_pos hc, List.length_take, List.length_singleton] at g1; omega
        · rw [if_neg hc, List.length_take, List.length_cons] at g1; omega
    · rcases g3 with ⟨_, _, g3⟩ | ⟨_, g3⟩
      · exact g3
      · omega
  · rcases g3 with ⟨g3, _⟩ | ⟨g3, _⟩
    · omega
    · exact g3

/-- C26. Finding: with a buffer of one byte the result 0 does not mean the end of the stream. -/
theorem C26_one_byte_buffer (sched : List Sys) (data : List UInt8) (x : UInt8) :
    readLine sched data [x] 1 = some { fin := .ret 0, buf := [0], rest := data } := by
  cases sched <;> simp [readLine, readLineLoop, poke]

example : readLine [.upto 0, .intr, .upto 0, .upto 0, .upto 0] (bs "ab\ncd") (bs "xxxxxxxx") 8 =
      some { fin := .ret 3, buf := bs "ab\n" ++ [0] ++ bs "xxxx", rest := bs "cd" } ∧
    readLine [.upto 0, .upto 0, .upto 0] (bs "abcd\n") (bs "xxx") 3 = some { fin := .ret 2, buf := bs "ab" ++ [0], rest := bs "cd\n" } ∧
    readLine [.upto 0] [] (bs "xxx") 3 = some { fin := .ret 0, buf := bs "xxx", rest := [] } := by decide

/-! ### C24 -/

theorem split_end (p : UInt8 → Prop) [DecidablePred p] : ∀ s : List UInt8, ∃ x y, s = x ++ y ∧ (∀ c ∈ y, p c) ∧ (x = [] ∨ ∃ a c, x = a ++ [c] ∧ ¬ p c) := by
  intro s
  induction s with
  | nil => exact ⟨[], [], rfl, by simp, Or.inl rfl⟩
  | cons c s ih =>
    obtain ⟨x, y, e, hy, hx⟩ := ih
    rcases hx with rfl | ⟨a, d, rfl, hd⟩
    · by_cases hc : p c
      · exact ⟨[], c :: y, by rw [e]; rfl, by intro d hd; rcases List.mem_cons.1 hd with rfl | hd; exact hc; exact hy d hd, Or.inl rfl⟩
      · exact ⟨[c], y, by rw [e]; rfl, hy, Or.inr ⟨[], c, rfl, hc⟩⟩
    · exact ⟨c :: a ++ [d], y, by rw [e]; rfl, hy, Or.inr ⟨c :: a, d, rfl, hd⟩⟩

theorem backSlashes_stop {s : List UInt8} {i : Nat} {c : UInt8} (h : s[i]? = some c) (hc : c ≠ 0x2F) : backSlashes s (i + 1) = some (i + 1) := by
  rw [backSlashes]
  by_cases h0 : i > 0
  · rw [if_pos h0, h]; dsimp only; rw [if_neg hc]
  · rw [if_neg h0]

theorem backSlashes_one (s : List UInt8) : backSlashes s 1 = some 1 := by
  rw [backSlashes, if_neg (by omega)]

theorem backSlashes_run {s : List UInt8} {i : Nat} (h0 : 1 ≤ i) : ∀ k, (∀ j, i ≤ j → j < i + k → s[j]? = some 0x2F) → backSlashes s (i + k) = backSlashes s i := by
  intro k
  induction k with
  | zero => intro _; rfl
  | succ k ih =>
    intro h
    rw [← Nat.add_assoc, backSlashes, if_pos (by omega), h (i + k) (by omega) (by omega)]
    dsimp only
    rw [if_pos rfl, ih (fun j h1 h2 => h j h1 (by omega))]

theorem backName_run {s : List UInt8} {i : Nat} : ∀ k, (∀ j, i ≤ j → j < i + k → ∃ c, s[j]? = some c ∧ c ≠ 0x2F) → backName s (i + k) = backName s i := by
  intro k
  induction k with
  | zero => intro _; rfl
  | succ k ih =>
    intro h
    obtain ⟨c, hc, hn⟩ := h (i + k) (by omega) (by omega)
    rw [← Nat.add_assoc, backName, hc]
    dsimp only
    rw [if_pos hn, ih (fun j h1 h2 => h j h1 (by omega))]

theorem backName_stop {s : List UInt8} {i : Nat} (h : s[i]? = some 0x2F) : backName s (i + 1) = some (i + 1) := by
  rw [backName, h]; rfl

theorem mid_get {x y z : List UInt8} {j : Nat} (h1 : x.length ≤ j) (h2 : j < x.length + y.length) : ∃ c, (x ++ y ++ z)[j]? = some c ∧ c ∈ y := by
  have hj : j - x.length < y.length := by omega
  refine ⟨y[j - x.length], ?_, List.getElem_mem hj⟩
  rw [List.append_assoc, List.getElem?_append_right h1, List.getElem?_append_left hj, List.getElem?_eq_getElem hj]

/-- The three loops of `get_dir_name`. -/
theorem dir_loops (path : List UInt8) : ∃ dir, DirName path dir ∧ ∃ i j k, backSlashes path path.length = some i ∧ backName path i = some j ∧
    backSlashes path j = some k ∧ (k = 0 ∧ dir = bs "." ∨ 0 < k ∧ k ≤ path.length ∧ dir = path.take k) := by
  obtain ⟨x, t, e, ht, hx⟩ := split_end (fun c => c = 0x2F) path
  rcases hx with rfl | ⟨a, c, rfl, hc⟩
  · -- only slashes
    simp only [List.nil_append] at e
    subst e
    cases path with
    | nil => exact ⟨bs ".", .empty, 0, 0, 0, rfl, rfl, rfl, Or.inl ⟨rfl, rfl⟩⟩
    | cons d t =>
      have hd : d = 0x2F := ht d (by simp)
      subst hd
      refine ⟨bs "/", .root _ (by simp) ht, 1, 1, 1, ?_, backName_stop rfl, backSlashes_one _, Or.inr ⟨by omega, by simp, by simp; decide⟩⟩
      have := backSlashes_run (s := 0x2F :: t) (i := 1) (by omega) t.length (fun j h1 h2 => by
        have hj : j < (0x2F :: t).length := by simp; omega
        rw [List.getElem?_eq_getElem hj, ht _ (List.getElem_mem hj)])
      rw [List.length_cons, Nat.add_comm, this]
      exact backSlashes_one _
  · -- path = a ++ [c] ++ t
    have h1 : backSlashes path path.length = some (a.length + 1) := by
      have := backSlashes_run (s := path) (i := a.length + 1) (by omega) t.length (fun j g1 g2 => by
        obtain ⟨d, hd, hm⟩ := mid_get (x := a ++ [c]) (y := t) (z := []) (j := j) (by simp; omega) (by simp; omega)
        rw [List.append_nil, ← e] at hd
        rw [hd, ht d hm])
      have hl : path.length = a.length + 1 + t.length := by rw [e]; simp; omega
      rw [hl, this]
      exact backSlashes_stop (c := c) (by rw [e]; simp) hc
    obtain ⟨b, w, e2, hw, hb⟩ := split_end (fun c => c ≠ 0x2F) (a ++ [c])
    have hl2 : a.length + 1 = b.length + w.length := by
      have := congrArg List.length e2; simpa using this
    have hw0 : w ≠ [] := by
      rintro rfl
      rcases hb with rfl | ⟨b', d, rfl, hd⟩
      · simp at e2
      · rw [List.append_nil] at e2
        have := List.append_inj_right' e2 rfl
        simp at this
        exact hd (this ▸ hc)
    have hcomp : component w := ⟨hw0, hw⟩
    have hpath : path = b ++ w ++ t := by rw [e, e2]
    have h2 : backName path (a.length + 1) = backName path b.length := by
      rw [hl2]
      refine backName_run w.length (fun j g1 g2 => ?_)
      obtain ⟨d, hd, hm⟩ := mid_get (x := b) (y := w) (z := t) g1 g2
      exact ⟨d, by rw [hpath]; exact hd, hw d hm⟩
    rcases hb with rfl | ⟨b', d, rfl, hd⟩
    · refine ⟨bs ".", ?_, _, 0, 0, h1, by rw [h2]; rfl, rfl, Or.inl ⟨rfl, rfl⟩⟩
      rw [hpath]
      exact .here w t hcomp ht
    · have hd' : d = 0x2F := Decidable.not_not.1 hd
      subst hd'
      have h3 : backName path (b' ++ [0x2F]).length = some (b'.length + 1) := by
        have : (b' ++ [(0x2F : UInt8)]).length = b'.length + 1 := by simp
        rw [this]
        exact backName_stop (by rw [hpath]; simp)
      obtain ⟨f, s, e3, hs, hf⟩ := split_end (fun c => c = 0x2F) (b' ++ [0x2F])
      have hl3 : b'.length + 1 = f.length + s.length := by
        have := congrArg List.length e3; simpa using this
      have hs0 : s ≠ [] := by
        rintro rfl
        rcases hf with rfl | ⟨f', d, rfl, hd⟩
        · simp at e3
        · rw [List.append_nil] at e3
          have := List.append_inj_right' e3 rfl
          simp at this
          exact hd this.symm
      have hp3 : path = f ++ s ++ w ++ t := by rw [hpath, e3]
      rcases hf with rfl | ⟨f', d, rfl, hd⟩
      · refine ⟨bs "/", ?_, _, _, 1, h1, by rw [h2]; exact h3, ?_, Or.inr ⟨by omega, ?_, ?_⟩⟩
        · rw [hp3, List.nil_append]; exact .top s w t hs0 hs hcomp ht
        · have := backSlashes_run (s := path) (i := 1) (by omega) (s.length - 1) (fun j g1 g2 => by
            obtain ⟨d, hd, hm⟩ := mid_get (x := []) (y := s) (z := w ++ t) (j := j) (by simp) (by simp at hl3; simp; omega)
            rw [hp3]
            simp only [List.nil_append, List.append_assoc] at hd ⊢
            rw [hd, hs d hm])
          have e5 : b'.length + 1 = 1 + (s.length - 1) := by simp at hl3; omega
          rw [e5, this]; exact backSlashes_one _
        · have := congrArg List.length hp3
          have := List.length_pos_iff.2 hs0
          simp at *; omega
        · rw [hp3]
          cases s with
          | nil => exact absurd rfl hs0
          | cons y s =>
            have : y = 0x2F := hs y (by simp)
            subst this
            simp; decide
      · refine ⟨f' ++ [d], ?_, _, _, f'.length + 1, h1, by rw [h2]; exact h3, ?_, Or.inr ⟨by omega, ?_, ?_⟩⟩
        · rw [hp3]; exact .under f' d hd s w t hs0 hs hcomp ht
        · have := backSlashes_run (s := path) (i := f'.length + 1) (by omega) s.length (fun j g1 g2 => by
            obtain ⟨d', hd', hm⟩ := mid_get (x := f' ++ [d]) (y := s) (z := w ++ t) (j := j) (by simp; omega) (by simp; omega)
            rw [hp3]
            simp only [List.append_assoc] at hd' ⊢
            rw [hd', hs d' hm])
          have e5 : b'.length + 1 = f'.length + 1 + s.length := by simp at hl3; omega
          rw [e5, this]
          exact backSlashes_stop (c := d) (by rw [hp3]; simp) hd
        · rw [hp3]; simp
        · rw [hp3]
          have : f'.length + 1 = (f' ++ [d]).length := by simp
          rw [this, List.append_assoc, List.append_assoc, List.take_left]

/-- C24. The directory name of every path; it fails exactly if the name and its NUL do not fit, and stores nothing then. -/
theorem C24_dir_name (path dst : List UInt8) (dstlen : Nat) (h : dstlen ≤ dst.length) (hz : (0 : UInt8) ∉ path) :
    ∃ dir, DirName path dir ∧ ∃ dst', getDirName path dst dstlen = some (dst', decide (dir.length < dstlen)) ∧
      (dir.length < dstlen → cstr dst' = some dir ∧ dst'.length = dst.length ∧ dst'.drop (dir.length + 1) = dst.drop (dir.length + 1)) ∧
      (¬ dir.length < dstlen → dst' = dst) := by
  obtain ⟨dir, hd, i, j, k, h1, h2, h3, h4⟩ := dir_loops path
  refine ⟨dir, hd, ?_⟩
  unfold getDirName
  rw [h1, Option.bind_some, h2, Option.bind_some, h3, Option.bind_some]
  have main : ∀ w : List UInt8, (0 : UInt8) ∉ w → w.length < dstlen → pokes dst 0 (w ++ [0]) = some (over dst 0 (w ++ [0])) ∧
      cstr (over dst 0 (w ++ [0])) = some w ∧ (over dst 0 (w ++ [0])).length = dst.length ∧
      (over dst 0 (w ++ [0])).drop (w.length + 1) = dst.drop (w.length + 1) := by
    intro w hw hl
    refine ⟨pokes_eq _ (by simp; omega), cstr_over hw, over_length (by simp; omega), over_drop (by simp) (by omega)⟩
  rcases h4 with ⟨rfl, rfl⟩ | ⟨h0, hk, rfl⟩
  · rw [if_pos rfl]
    by_cases g : dstlen < 2
    · rw [if_pos g]
      have hlen : (bs ".").length = 1 := by decide
      refine ⟨dst, by rw [decide_eq_false (by omega)], fun g' => by omega, fun _ => rfl⟩
    · rw [if_neg g]
      have hlen : (bs ".").length = 1 := by decide
      obtain ⟨m1, m2, m3, m4⟩ := main (bs ".") (by decide) (by omega)
      have e : pokes dst 0 [0x2E, 0] = pokes dst 0 (bs "." ++ [0]) := rfl
      rw [e, m1, Option.map_some]
      exact ⟨_, by rw [decide_eq_true (by omega)], fun _ => ⟨m2, m3, m4⟩, fun g' => by omega⟩
  · have hlen : (path.take k).length = k := by rw [List.length_take]; omega
    rw [if_neg (by omega)]
    by_cases g : k ≥ dstlen
    · rw [if_pos g]
      exact ⟨dst, by rw [decide_eq_false (by omega)], fun g' => by omega, fun _ => rfl⟩
    · rw [if_neg g]
      obtain ⟨m1, m2, m3, m4⟩ := main (path.take k) (fun hm => hz (List.mem_of_mem_take hm)) (by omega)
      rw [m1, Option.map_some]
      exact ⟨_, by rw [decide_eq_true (by omega)], fun _ => ⟨m2, m3, m4⟩, fun g' => by omega⟩

/-- C24. The directory of a path is determined. -/
theorem C24_dir_unique (path d1 d2 : List UInt8) (h1 : DirName path d1) (h2 : DirName path d2) : d1 = d2 := by
  have key : ∀ (d : List UInt8), DirName path d → d = (let a := (path.reverse.dropWhile (· = 0x2F)); let b := a.dropWhile (· ≠ 0x2F)
      let c := b.dropWhile (· = 0x2F)
      if path = [] then bs "." else if a = [] then bs "/" else if b = [] then bs "." else if c = [] then bs "/" else c.reverse) := by
    have dw : ∀ (p : UInt8 → Bool) (x y : List UInt8), (∀ c ∈ x, p c = true) → (x ++ y).dropWhile p = y.dropWhile p := by
      intro p x y hx
      induction x with
      | nil => rfl
      | cons c x ih => rw [List.cons_append, List.dropWhile_cons, hx c (by simp), if_pos rfl, ih (fun d hd => hx d (by simp [hd]))]
    have dall : ∀ (p : UInt8 → Bool) (x : List UInt8), (∀ c ∈ x, p c = true) → x.dropWhile p = [] := by
      intro p x hx
      have := dw p x [] hx
      simpa using this
    have dno : ∀ (p : UInt8 → Bool) (c : UInt8) (x : List UInt8), p c = false → (c :: x).dropWhile p = c :: x := by
      intro p c x hc
      rw [List.dropWhile_cons, hc]; rfl
    have comp : ∀ (w : List UInt8), component w → ∃ c x, w.reverse = c :: x ∧ c ≠ 0x2F ∧ ∀ d ∈ c :: x, d ≠ 0x2F := by
      intro w hw
      cases hr : w.reverse with
      | nil => exact absurd (List.reverse_eq_nil_iff.1 hr) hw.1
      | cons c x =>
        have : ∀ d ∈ c :: x, d ≠ 0x2F := fun d hd => hw.2 d (by rw [← List.mem_reverse, hr]; exact hd)
        exact ⟨c, x, rfl, this c (by simp), this⟩
    have sl : ∀ (s : List UInt8), slashes s → ∀ c ∈ s.reverse, decide (c = 0x2F) = true := fun s hs c hc => decide_eq_true (hs c (List.mem_reverse.1 hc))
    intro d hd
    cases hd with
    | empty => simp
    | root _ h0 h =>
      dsimp only
      rw [dall _ _ (sl path h)]
      simp [h0]
    | here c t hc ht =>
      obtain ⟨y, x, hr, hy, hall⟩ := comp c hc
      dsimp only
      rw [List.reverse_append, dw _ _ _ (sl t ht), hr, dno _ y x (by simpa using hy), dall (fun z => decide (z ≠ 0x2F)) (y :: x) (fun z hz => decide_eq_true (hall z hz))]
      simp [hc.1]
    | top s c t h0 hs hc ht =>
      obtain ⟨y, x, hr, hy, hall⟩ := comp c hc
      dsimp only
      rw [List.reverse_append, List.reverse_append, dw _ _ _ (sl t ht), hr, List.cons_append, dno _ y _ (by simpa using hy), ← List.cons_append,
        dw (fun z => decide (z ≠ 0x2F)) (y :: x) _ (fun z hz => decide_eq_true (hall z hz))]
      have hsr : ∃ z zs, s.reverse = z :: zs ∧ z = 0x2F := by
        cases hr : s.reverse with
        | nil => exact absurd (List.reverse_eq_nil_iff.1 hr) h0
        | cons z zs => exact ⟨z, zs, rfl, hs z (by rw [← List.mem_reverse, hr]; simp)⟩
      obtain ⟨z, zs, hz, hz2⟩ := hsr
      have : s.reverse.dropWhile (fun z => decide (z ≠ 0x2F)) = s.reverse := by rw [hz]; exact dno _ z zs (by simp [hz2])
      rw [this, dall _ _ (sl s hs)]
      simp [h0, hc.1]
    | under d x hx s c t h0 hs hc ht =>
      obtain ⟨y, x', hr, hy, hall⟩ := comp c hc
      dsimp only
      rw [List.reverse_append, List.reverse_append, List.reverse_append, dw _ _ _ (sl t ht), hr, List.cons_append, dno _ y _ (by simpa using hy), ← List.cons_append,
        dw (fun z => decide (z ≠ 0x2F)) (y :: x') _ (fun z hz => decide_eq_true (hall z hz))]
      have hsr : ∃ z zs, s.reverse = z :: zs ∧ z = 0x2F := by
        cases hr : s.reverse with
        | nil => exact absurd (List.reverse_eq_nil_iff.1 hr) h0
        | cons z zs => exact ⟨z, zs, rfl, hs z (by rw [← List.mem_reverse, hr]; simp)⟩
      obtain ⟨z, zs, hz, hz2⟩ := hsr
      have : (s.reverse ++ (d ++ [x]).reverse).dropWhile (fun z => decide (z ≠ 0x2F)) = s.reverse ++ (d ++ [x]).reverse := by
        rw [hz, List.cons_append]; exact dno _ z _ (by simp [hz2])
      rw [this, dw _ _ _ (sl s hs)]
      have h5 : (d ++ [x]).reverse.dropWhile (fun z => decide (z = 0x2F)) = (d ++ [x]).reverse := by
        rw [List.reverse_append]; exact dno _ x _ (by simpa using hx)
      rw [h5, List.reverse_reverse]
      simp [h0]
  rw [key d1 h1, key d2 h2]

example : getDirName (bs "//usr//lib///") (bs "xxxxxxxx") 8 = some (bs "//usr" ++ [0] ++ bs "xx", true) ∧ DirName (bs "//usr//lib///") (bs "//usr") ∧
    getDirName (bs "//usr//lib///") (bs "xxxxxxxx") 5 = some (bs "xxxxxxxx", false) ∧ getDirName (bs "log") (bs "xx") 2 = some (bs "." ++ [0], true) :=
  ⟨by decide, .under (bs "//us") 0x72 (by decide) (bs "//") (bs "lib") (bs "///") (by decide) (by unfold slashes; decide) ⟨by decide, by decide⟩
    (by unfold slashes; decide), by decide, by decide⟩

/-! ### C66 -/

/-- `isAncestor` by length. -/
def ancLen (s : List UInt8) (m : Nat) : Prop := (∃ x, s[m]? = some x ∧ x ≠ 0x2F) ∧ (m + 1 = s.length ∨ s[m + 1]? = some 0x2F)

theorem isAncestor_iff (s d : List UInt8) : isAncestor d s ↔ ∃ m, d = s.take (m + 1) ∧ ancLen s m := by
  constructor
  · rintro ⟨r, e, hr, a, x, rfl, hx⟩
    refine ⟨a.length, ?_, ⟨x, by rw [e]; simp, hx⟩, ?_⟩
    · rw [e]
      have : a.length + 1 = (a ++ [x]).length := by simp
      rw [this, List.take_left]
    · rcases hr with rfl | hr
      · left; rw [e]; simp
      · right
        rw [e]
        have : a.length + 1 = (a ++ [x]).length + 0 := by simp
        rw [this, List.getElem?_append_right (by omega)]
        cases r with
        | nil => simp at hr
        | cons y r => simp at hr ⊢; exact hr
  · rintro ⟨m, rfl, ⟨x, hx, hn⟩, h⟩
    obtain ⟨hm, rfl⟩ := List.getElem?_eq_some_iff.1 hx
    refine ⟨s.drop (m + 1), (List.take_append_drop _ _).symm, ?_, s.take m, s[m], ?_, hn⟩
    · rcases h with h | h
      · left; rw [h, List.drop_length]
      · right; rw [List.head?_drop]; exact h
    · rw [List.take_append_getElem hm]

theorem takeWhile_get {p : UInt8 → Bool} : ∀ {l : List UInt8} {j : Nat}, j < (l.takeWhile p).length → ∃ c, l[j]? = some c ∧ p c = true := by
  intro l
  induction l with
  | nil => intro j h; simp at h
  | cons c l ih =>
    intro j h
    rw [List.takeWhile_cons] at h
    by_cases hc : p c = true
    · rw [hc, if_pos rfl] at h
      cases j with
      | zero => exact ⟨c, rfl, hc⟩
      | succ j => exact ih (by simpa using h)
    · rw [if_neg hc] at h; simp at h

theorem takeWhile_end {p : UInt8 → Bool} : ∀ {l : List UInt8}, (l.takeWhile p).length < l.length → ∃ c, l[(l.takeWhile p).length]? = some c ∧ p c = false := by
  intro l
  induction l with
  | nil => intro h; simp at h
  | cons c l ih =>
    intro h
    rw [List.takeWhile_cons] at h ⊢
    by_cases hc : p c = true
    · rw [hc, if_pos rfl] at h ⊢
      obtain ⟨d, h1, h2⟩ := ih (by simpa using h)
      exact ⟨d, by simpa using h1, h2⟩
    · rw [if_neg hc]
      exact ⟨c, rfl, by simpa using hc⟩

theorem takeWhile_length_le {p : UInt8 → Bool} (l : List UInt8) : (l.takeWhile p).length ≤ l.length := (List.takeWhile_sublist p).length_le

theorem dirsLoop_spec (a : List UInt8) (c : UInt8) (hc : c ≠ 0x2F) : ∀ (n i : Nat), (a ++ [c]).length < n + i → i ≤ a.length → (i = 0 ∨ (a ++ [c])[i - 1]? = some 0x2F) →
    ∃ ms : List Nat, dirsLoop (a ++ [c]) n i = some (ms.map (fun m => (a ++ [c]).take (m + 1))) ∧ ms.Pairwise (· < ·) ∧
      ∀ m, m ∈ ms ↔ i ≤ m ∧ ancLen (a ++ [c]) m := by
  intro n
  generalize hs : a ++ [c] = s
  have hlen : s.length = a.length + 1 := by rw [← hs]; simp
  have hlast : s[a.length]? = some c := by rw [← hs]; simp
  induction n with
  | zero => intro i h hi _; omega
  | succ n ih =>
    intro i h hi hi0
    unfold dirsLoop
    dsimp only
    generalize hj : i + ((s.drop i).takeWhile (· = 0x2F)).length = j
    generalize hk : j + ((s.drop j).takeWhile (· ≠ 0x2F)).length = k
    have sl : ∀ m, i ≤ m → m < j → s[m]? = some 0x2F := by
      intro m h1 h2
      obtain ⟨x, hx, hp⟩ := takeWhile_get (l := s.drop i) (p := (· = 0x2F)) (j := m - i) (by omega)
      rw [List.getElem?_drop] at hx
      have : i + (m - i) = m := by omega
      rw [this] at hx
      rw [hx, of_decide_eq_true hp]
    have hjl : j ≤ a.length := by
      apply Classical.byContradiction
      intro g
      have := sl a.length hi (by omega)
      rw [hlast] at this
      simp at this
      exact hc this
    have hje : ∃ x, s[j]? = some x ∧ x ≠ 0x2F := by
      have hle : ((s.drop i).takeWhile (· = 0x2F)).length < (s.drop i).length := by rw [List.length_drop]; omega
      obtain ⟨x, hx, hp⟩ := takeWhile_end (l := s.drop i) (p := (· = 0x2F)) hle
      rw [List.getElem?_drop, hj] at hx
      exact ⟨x, hx, by simpa using hp⟩
    have nm : ∀ m, j ≤ m → m < k → ∃ x, s[m]? = some x ∧ x ≠ 0x2F := by
      intro m h1 h2
      obtain ⟨x, hx, hp⟩ := takeWhile_get (l := s.drop j) (p := (· ≠ 0x2F)) (j := m - j) (by omega)
      rw [List.getElem?_drop] at hx
      have : j + (m - j) = m := by omega
      rw [this] at hx
      exact ⟨x, hx, of_decide_eq_true hp⟩
    have hkl : k ≤ s.length := by
      have := takeWhile_length_le (p := (· ≠ 0x2F)) (s.drop j)
      rw [List.length_drop] at this
      omega
    have hjk : j < k := by
      apply Classical.byContradiction
      intro g
      have : ((s.drop j).takeWhile (· ≠ 0x2F)).length < (s.drop j).length := by rw [List.length_drop]; omega
      obtain ⟨x, hx, hp⟩ := takeWhile_end (l := s.drop j) (p := (· ≠ 0x2F)) this
      rw [List.getElem?_drop, hk] at hx
      obtain ⟨y, hy, hy2⟩ := hje
      have : k = j := by omega
      rw [this, hy] at hx
      cases hx
      simp at hp
      exact hy2 hp
    have anck : ∀ m, i ≤ m → m < k → (ancLen s m ↔ m + 1 = k ∧ (k = s.length ∨ s[k]? = some 0x2F)) := by
      intro m h1 h2
      unfold ancLen
      constructor
      · rintro ⟨⟨x, hx, hn⟩, h3⟩
        have hmj : j ≤ m := by
          apply Classical.byContradiction
          intro g
          rw [sl m h1 (by omega)] at hx
          cases hx
          exact hn rfl
        have hmk : m + 1 = k := by
          apply Classical.byContradiction
          intro g
          rcases h3 with h3 | h3
          · omega
          · obtain ⟨y, hy, hy2⟩ := nm (m + 1) (by omega) (by omega)
            rw [hy] at h3; cases h3; exact hy2 rfl
        rw [hmk] at h3
        exact ⟨hmk, h3⟩
      · rintro ⟨h3, h4⟩
        rw [h3]
        exact ⟨nm m (by omega) h2, h4⟩
    by_cases hkn : k < s.length
    · rw [if_pos hkn]
      have hsk : s[k]? = some 0x2F := by
        have : ((s.drop j).takeWhile (· ≠ 0x2F)).length < (s.drop j).length := by rw [List.length_drop]; omega
        obtain ⟨x, hx, hp⟩ := takeWhile_end (l := s.drop j) (p := (· ≠ 0x2F)) this
        rw [List.getElem?_drop, hk] at hx
        simp at hp
        rw [hx, hp]
      have hka : k + 1 ≤ a.length := by
        apply Classical.byContradiction
        intro g
        have : k = a.length := by omega
        rw [this, hlast] at hsk
        cases hsk; exact hc rfl
      obtain ⟨ms, g1, g2, g3⟩ := ih (k + 1) (by omega) hka (Or.inr (by simpa using hsk))
      rw [g1, Option.map_some]
      refine ⟨(k - 1) :: ms, ?_, ?_, ?_⟩
      · have : k - 1 + 1 = k := by omega
        simp [this]
      · rw [List.pairwise_cons]
        exact ⟨fun m hm => by have := ((g3 m).1 hm).1; omega, g2⟩
      · intro m
        rw [List.mem_cons, g3]
        constructor
        · rintro (rfl | ⟨h1, h2⟩)
          · exact ⟨by omega, (anck _ (by omega) (by omega)).2 ⟨by omega, Or.inr hsk⟩⟩
          · exact ⟨by omega, h2⟩
        · rintro ⟨h1, h2⟩
          by_cases hmk : m < k
          · left; have := ((anck m h1 hmk).1 h2).1; omega
          · right
            refine ⟨?_, h2⟩
            apply Classical.byContradiction
            intro g
            have : m = k := by omega
            subst this
            obtain ⟨⟨x, hx, hn⟩, _⟩ := h2
            rw [hsk] at hx; cases hx; exact hn rfl
    · rw [if_neg hkn]
      have hke : k = s.length := by omega
      refine ⟨[k - 1], ?_, by simp, ?_⟩
      · have : k - 1 + 1 = k := by omega
        simp only [List.map_cons, List.map_nil, this]
        rw [hke, List.take_length]
      · intro m
        rw [List.mem_singleton]
        constructor
        · rintro rfl
          exact ⟨by omega, (anck _ (by omega) (by omega)).2 ⟨by omega, Or.inl hke⟩⟩
        · rintro ⟨h1, h2⟩
          have : m < k := by
            obtain ⟨x, hx, _⟩ := h2.1
            have := (List.getElem?_eq_some_iff.1 hx).1
            omega
          have := ((anck m h1 this).1 h2).1
          omega

/-- C66. The directories `create_dirs` makes for a name: those on the way to it and itself (without trailing slashes), each of them once,
parents first. -/
theorem C66_create_dirs (s : List UInt8) (h0 : s ≠ []) :
    (slashes s ∧ createDirs s = some [bs "/"]) ∨
    ∃ p t ds, s = p ++ t ∧ slashes t ∧ createDirs s = some ds ∧ ds.Pairwise (fun a b => a.length < b.length) ∧ (∀ d, d ∈ ds ↔ isAncestor d p) ∧
      isAncestor p p := by
  obtain ⟨x, t, e, ht, hx⟩ := split_end (fun c => c = 0x2F) s
  rcases hx with rfl | ⟨a, c, rfl, hc⟩
  · left
    simp only [List.nil_append] at e
    subst e
    refine ⟨ht, ?_⟩
    cases s with
    | nil => exact absurd rfl h0
    | cons d t =>
      have hd : d = 0x2F := ht d (by simp)
      subst hd
      have h1 : backSlashes (0x2F :: t) (0x2F :: t).length = some 1 := by
        have := backSlashes_run (s := 0x2F :: t) (i := 1) (by omega) t.length (fun j h1 h2 => by
          have hj : j < (0x2F :: t).length := by simp; omega
          rw [List.getElem?_eq_getElem hj, ht _ (List.getElem_mem hj)])
        rw [List.length_cons, Nat.add_comm, this]
        exact backSlashes_one _
      unfold createDirs stripSlashes
      dsimp only
      rw [h1, Option.bind_some]
      have : (0x2F :: t).take 1 = [0x2F] := by simp
      rw [this]
      decide
  · right
    have h1 : backSlashes s s.length = some (a.length + 1) := by
      have := backSlashes_run (s := s) (i := a.length + 1) (by omega) t.length (fun j g1 g2 => by
        obtain ⟨d, hd, hm⟩ := mid_get (x := a ++ [c]) (y := t) (z := []) (j := j) (by simp; omega) (by simp; omega)
        rw [List.append_nil, ← e] at hd
        rw [hd, ht d hm])
      have hl : s.length = a.length + 1 + t.length := by rw [e]; simp; omega
      rw [hl, this]
      exact backSlashes_stop (c := c) (by rw [e]; simp) hc
    obtain ⟨ms, g1, g2, g3⟩ := dirsLoop_spec a c hc (a.length + 2) 0 (by simp) (by omega) (Or.inl rfl)
    refine ⟨a ++ [c], t, ms.map (fun m => (a ++ [c]).take (m + 1)), e, ht, ?_, ?_, ?_, ⟨[], by simp, Or.inl rfl, a, c, rfl, hc⟩⟩
    · have hst : stripSlashes s = some (a.length + 1) := by
        unfold stripSlashes
        cases s with
        | nil => exact absurd rfl h0
        | cons x s => exact h1
      unfold createDirs
      rw [hst, Option.bind_some, e]
      have : a.length + 1 = (a ++ [c]).length := by simp
      rw [this, List.take_left, ← this]
      exact g1
    · rw [List.pairwise_map]
      refine List.Pairwise.imp_of_mem (fun {m m'} hm hm' hlt => ?_) g2
      have hle : ∀ m, m ∈ ms → m + 1 ≤ (a ++ [c]).length := by
        intro m hm
        obtain ⟨x, hx, _⟩ := ((g3 m).1 hm).2.1
        have := (List.getElem?_eq_some_iff.1 hx).1
        omega
      have := hle m hm
      have := hle m' hm'
      rw [List.length_take, List.length_take]
      omega
    · intro d
      rw [isAncestor_iff]
      constructor
      · intro hd
        obtain ⟨m, hm, rfl⟩ := List.mem_map.1 hd
        exact ⟨m, rfl, ((g3 m).1 hm).2⟩
      · rintro ⟨m, rfl, hm⟩
        exact List.mem_map.2 ⟨m, (g3 m).2 ⟨by omega, hm⟩, rfl⟩

/-- C66. Creation stops at the first directory that can be neither made nor found, and succeeds only if there is none. -/
theorem C66_stops_at_failure (mk : List UInt8 → Bool) (ds : List (List UInt8)) :
    ((makeAll mk ds).2 = true ↔ ∀ d ∈ ds, mk d = true) ∧
    ((makeAll mk ds).2 = true → (makeAll mk ds).1 = ds) ∧
    ((makeAll mk ds).2 = false → ∃ a d b, ds = a ++ d :: b ∧ (∀ x ∈ a, mk x = true) ∧ mk d = false ∧ (makeAll mk ds).1 = a ++ [d]) := by
  induction ds with
  | nil => simp [makeAll]
  | cons d ds ih =>
    obtain ⟨i1, i2, i3⟩ := ih
    rw [makeAll]
    by_cases h : mk d = true
    · rw [if_pos h]
      refine ⟨by simp [h, i1], fun g => by simp [i2 g], fun g => ?_⟩
      obtain ⟨a, x, b, e, h1, h2, h3⟩ := i3 g
      exact ⟨d :: a, x, b, by rw [e]; rfl, by simpa [h] using h1, h2, by simp [h3]⟩
    · rw [if_neg h]
      refine ⟨by simp [h], by simp, fun _ => ⟨[], d, ds, rfl, by simp, by simpa using h, rfl⟩⟩

example : createDirs (bs "/var//log/conman/") = some [bs "/var", bs "/var//log", bs "/var//log/conman"] ∧ createDirs (bs "//") = some [bs "/"] ∧
    createDirs (bs "logs") = some [bs "logs"] ∧ isAncestor (bs "/var") (bs "/var//log") :=
  ⟨by decide, by decide, by decide, bs "//log", by decide, Or.inr (by decide), bs "/va", 0x72, by decide, by decide⟩

end Conman
