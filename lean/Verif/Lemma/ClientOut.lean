import Verif.Model.ClientOut
import Verif.Lemma.Esc
import Verif.Lemma.ProtoRsp
import Verif.Props.CStr
import Verif.Spec.Session

/-
Texts of the client.
-/
namespace Conman
open Spec

theorem shown_short (c : UInt8) : 0 < (shown c).length ∧ (shown c).length ≤ 2 := by
  unfold shown; split
  · simp
  · split
    · decide
    · simp

theorem shown_nz_all : ∀ n : Fin 256, (0 : UInt8) ∉ shown (UInt8.ofNat n.val) := by decide +kernel

theorem shown_nz (c : UInt8) : (0 : UInt8) ∉ shown c := by
  have := shown_nz_all ⟨c.toNat, c.toNat_lt⟩
  simpa using this

theorem writeEscChar_eq {buf : List UInt8} {i : Nat} (c : UInt8) (h : i + (shown (c &&& 0x7F)).length + 1 ≤ buf.length) :
    writeEscChar buf i c = some (over buf i (shown (c &&& 0x7F) ++ [0]), i + (shown (c &&& 0x7F)).length) := by
  have e : (if c &&& 0x7F < 0x20 then [0x5E, (c &&& 0x7F) + 0x40] else if c &&& 0x7F = 0x7F then [0x5E, 0x3F] else [c &&& 0x7F]) = shown (c &&& 0x7F) := rfl
  unfold writeEscChar
  dsimp only
  rw [e, pokes_eq _ (by rw [List.length_append]; simp; omega)]
  rfl

theorem escText_eq {buf : List UInt8} (c : UInt8) (h : 3 ≤ buf.length) :
    (writeEscChar buf 0 c).bind (fun r => cstr r.1) = some (shown (c &&& 0x7F)) := by
  rw [writeEscChar_eq c (by have := (shown_short (c &&& 0x7F)).2; omega), Option.bind_some]
  exact cstr_over (shown_nz _)

theorem echoEsc_eq {stk : List UInt8} (e c : UInt8) (h : 4 ≤ stk.length) (hc : (shown (c &&& 0x7F)).length = 1) :
    echoEsc stk e c = some (shown (e &&& 0x7F) ++ shown (c &&& 0x7F)) := by
  have hs := shown_short (e &&& 0x7F)
  unfold echoEsc
  rw [writeEscChar_eq e (by rw [List.length_take]; omega), Option.bind_some]
  dsimp only
  have hl : (over (stk.take 4) 0 (shown (e &&& 0x7F) ++ [0])).length = 4 := by
    rw [over_length (by rw [List.length_append, List.length_take]; simp; omega), List.length_take]; omega
  rw [writeEscChar_eq c (by rw [hl]; omega), Option.map_some]
  dsimp only
  congr 1
  unfold over
  simp only [Nat.zero_add, List.take_zero, List.nil_append, List.append_assoc]
  rw [List.take_append_of_le_length (Nat.le_refl _), List.take_length, ← List.append_assoc, List.take_append_of_le_length (by rw [List.length_append]; exact Nat.le_refl _), List.take_of_length_le (by rw [List.length_append]; exact Nat.le_refl _)]

/-- A status message of the text `t`. -/
theorem status_eq {stk t : List UInt8} (h : 1024 ≤ stk.length) (ht : (0 : UInt8) ∉ t) :
    ((snprintf (stk.take maxLine) 0 maxLine t).bind fun r =>
      (if r.2 ≥ maxLine then pokes r.1 (maxLine - 3) (bs "\r\n" ++ [0]) else some r.1).bind cstr) =
    some (if t.length < 1024 then t else t.take 1021 ++ bs "\r\n") := by
  have hm : maxLine = 1024 := rfl
  rw [hm, snprintf_eq (by omega) (by rw [List.length_take]; omega), Option.bind_some]
  dsimp only
  have hl : (over (stk.take 1024) 0 (t.take 1023 ++ [0])).length = 1024 := by
    rw [over_length (by rw [List.length_append, List.length_take, List.length_take]; simp; omega), List.length_take]; omega
  by_cases hlt : t.length < 1024
  · rw [if_neg (by omega), if_pos hlt, Option.bind_some, List.take_of_length_le (l := t) (by omega)]
    exact cstr_over ht
  · rw [if_pos (by omega), if_neg hlt, pokes_eq _ (by rw [hl]; decide), Option.bind_some]
    have e : (over (stk.take 1024) 0 (t.take 1023 ++ [0])).take 1021 = t.take 1021 := by
      unfold over
      simp only [List.take_zero, List.nil_append, List.append_assoc]
      rw [List.take_append_of_le_length (by rw [List.length_take]; omega), List.take_take]
      rfl
    rw [show (1024 - 3 : Nat) = 1021 from rfl]
    exact cstr_over_at (a := t.take 1021) (d := bs "\r\n") e (fun hm => ht (List.mem_of_mem_take hm)) (by decide)

theorem argS_nz (s : List UInt8) : (0 : UInt8) ∉ argS s := by
  unfold argS
  induction s with
  | nil => simp
  | cons x s ih =>
    rw [List.takeWhile_cons]
    split
    · rename_i h
      intro hm
      rcases List.mem_cons.1 hm with rfl | hm
      · simp at h
      · exact ih hm
    · simp

/-- The texts of status messages. -/
def statusText (consoles : List (List UInt8)) (msg : List UInt8) : List UInt8 := bs "\r\n<ConMan> " ++ (statusWho consoles ++ msg ++ bs ".\r\n")

theorem statusWho_nz (cs : List (List UInt8)) : (0 : UInt8) ∉ statusWho cs := by
  have a2 : (0 : UInt8) ∉ bs "Connection to console [" := by decide
  have a3 : (0 : UInt8) ∉ bs "] " := by decide
  have a4 : (0 : UInt8) ∉ bs "Broadcast to " := by decide
  have a5 : (0 : UInt8) ∉ bs " consoles " := by decide
  unfold statusWho
  split <;> simp only [List.mem_append, not_or] <;> simp [a2, a3, a4, a5, argS_nz, dec_nz]

theorem statusText_nz (consoles : List (List UInt8)) {msg : List UInt8} (h : (0 : UInt8) ∉ msg) : (0 : UInt8) ∉ statusText consoles msg := by
  unfold statusText
  have a1 : (0 : UInt8) ∉ bs "\r\n<ConMan> " := by decide
  have a6 : (0 : UInt8) ∉ bs ".\r\n" := by decide
  simp only [List.mem_append, not_or]
  exact ⟨a1, ⟨statusWho_nz _, h⟩, a6⟩

theorem statusMsg_eq {stk : List UInt8} (h : 1024 ≤ stk.length) (consoles : List (List UInt8)) {msg : List UInt8} (hm : (0 : UInt8) ∉ msg) :
    statusMsg stk consoles msg = some (if (statusText consoles msg).length < 1024 then statusText consoles msg else (statusText consoles msg).take 1021 ++ bs "\r\n") :=
  status_eq h (statusText_nz consoles hm)

/-- What a status message is, whatever the names. -/
theorem statusMsg_msg {stk : List UInt8} (h : 1024 ≤ stk.length) (consoles : List (List UInt8)) {msg : List UInt8} (hm : (0 : UInt8) ∉ msg) :
    ∃ t, statusMsg stk consoles msg = some t ∧ IsMsg t ∧ t.length ≤ 1023 := by
  refine ⟨_, statusMsg_eq h consoles hm, ?_, ?_⟩
  · split
    · refine ⟨statusWho consoles ++ msg ++ bs ".", ?_⟩
      have : bs ".\r\n" = bs "." ++ bs "\r\n" := by decide
      unfold statusText
      rw [this]
      simp only [List.append_assoc]
    · refine ⟨(statusWho consoles ++ msg ++ bs ".\r\n").take 1010, ?_⟩
      unfold statusText
      rw [List.take_append, List.take_of_length_le (by decide)]
      rfl
  · split
    · omega
    · rw [List.length_append, List.length_take]
      have : (bs "\r\n").length = 2 := by decide
      omega

theorem infoMsg_msg (consoles : List (List UInt8)) (cmd : Cmd) (host : List UInt8) (port : Int) : IsMsg (infoMsg consoles cmd host port) := by
  have e : msgSuffix = bs "." ++ bs "\r\n" := by decide
  refine ⟨infoText cmd consoles ++ peerText host port ++ bs ".", ?_⟩
  unfold infoMsg
  rw [e]
  simp only [List.append_assoc]
  rfl

/-! ### Help -/

theorem helpLine_eq {stk : List UInt8} (h : 3 ≤ stk.length) (e c : UInt8) (d : List UInt8) :
    helpLine stk e c d = some (helpRow (e &&& 0x7F) (c &&& 0x7F) d) := by
  have hl : 3 ≤ (stk.take 3).length := by rw [List.length_take]; omega
  have h1 := escText_eq (buf := stk.take 3) e hl
  have h2 := escText_eq (buf := stk.take 3) c hl
  unfold helpLine
  cases ha : writeEscChar (stk.take 3) 0 e with
  | none => rw [ha] at h1; simp at h1
  | some a =>
    cases hb : writeEscChar (stk.take 3) 0 c with
    | none => rw [hb] at h2; simp at h2
    | some b =>
      rw [ha, Option.bind_some] at h1
      rw [hb, Option.bind_some] at h2
      simp only [Option.bind_some, h1, h2, Option.map_some]
      rfl

theorem helpRow_length (e c : UInt8) (d : List UInt8) : (helpRow e c d).length = d.length + 12 := by
  have h1 := shown_short e
  have h2 := shown_short c
  have e1 : (bs "  ").length = 2 := by decide
  have e2 : (bs " -  ").length = 4 := by decide
  have e3 : (bs "\r\n").length = 2 := by decide
  unfold helpRow
  simp only [List.length_append, List.length_replicate, e1, e2, e3]
  omega

theorem helpRow_nz (e c : UInt8) {d : List UInt8} (h : (0 : UInt8) ∉ d) : (0 : UInt8) ∉ helpRow e c d := by
  have e1 : (0 : UInt8) ∉ bs "  " := by decide
  have e2 : (0 : UInt8) ∉ bs " -  " := by decide
  have e3 : (0 : UInt8) ∉ bs "\r\n" := by decide
  unfold helpRow
  simp only [List.mem_append, not_or]
  have hr : ∀ n, (0 : UInt8) ∉ List.replicate n 0x20 := by
    intro n hm
    have := List.eq_of_mem_replicate hm
    revert this; decide
  simp [e1, e2, e3, shown_nz, hr, h]

theorem helpItems_small (s : CState) (n : Nat) : ((helpItems s n).map fun i => i.2.length).sum ≤ 600 ∧ (helpItems s n).length ≤ 20 ∧ ∀ i ∈ helpItems s n, (0 : UInt8) ∉ i.2 := by
  obtain ⟨esc, inEsc, cmd, bcast, force, join, quiet, reset, echo, wrClosed, done⟩ := s
  by_cases hn : n = 1
  · cases cmd <;> cases bcast <;> cases quiet <;> cases reset <;> cases echo <;> simp [helpItems, hn] <;> decide
  · cases cmd <;> cases bcast <;> cases quiet <;> cases reset <;> cases echo <;> simp [helpItems, hn] <;> decide

theorem flatten_rows_length (e : UInt8) (l : List (UInt8 × List UInt8)) :
    (l.map fun i => helpRow e (i.1 &&& 0x7F) i.2).flatten.length = (l.map fun i => i.2.length).sum + 12 * l.length := by
  induction l with
  | nil => rfl
  | cons x l ih =>
    simp only [List.map_cons, List.flatten_cons, List.length_append, List.sum_cons, List.length_cons, helpRow_length, ih]
    omega

/-- The help always fits. -/
theorem helpMsg_eq {stk : List UInt8} (h : 1024 ≤ stk.length) (s : CState) (n : Nat) :
    helpMsg stk s n = some (bs "\r\nSupported ConMan Escape Sequences:\r\n" ++ ((helpItems s n).map fun i => helpRow (s.esc &&& 0x7F) (i.1 &&& 0x7F) i.2).flatten) := by
  obtain ⟨h1, h2, h3⟩ := helpItems_small s n
  have hrows := flatten_rows_length (s.esc &&& 0x7F) (helpItems s n)
  have hmap : ((helpItems s n).mapM fun i => helpLine stk s.esc i.1 i.2) = some ((helpItems s n).map fun i => helpRow (s.esc &&& 0x7F) (i.1 &&& 0x7F) i.2) := by
    generalize helpItems s n = l
    induction l with
    | nil => rfl
    | cons x l ih => rw [List.mapM_cons, ih, helpLine_eq (by omega)]; rfl
  have hlast : ∃ l, (bs "\r\nSupported ConMan Escape Sequences:\r\n" :: (helpItems s n).map fun i => helpRow (s.esc &&& 0x7F) (i.1 &&& 0x7F) i.2).getLast? = some l ∧ l ≠ [] := by
    refine ⟨helpRow (s.esc &&& 0x7F) (0x5A &&& 0x7F) (bs "Suspend the client."), ?_, ?_⟩
    · unfold helpItems
      rw [List.map_append]
      rw [← List.cons_append, List.getLast?_append]
      rfl
    · intro hh
      have := helpRow_length (s.esc &&& 0x7F) (0x5A &&& 0x7F) (bs "Suspend the client.")
      rw [hh] at this
      simp at this
  obtain ⟨l, hl, hne⟩ := hlast
  obtain ⟨dst, hd, hlen, -, hc⟩ := C20_pieces_partial (List.replicate 4096 0) 4096 _ (by rw [List.length_replicate]; exact Nat.le_refl _) (by omega) (by rfl)
    (by
      intro x hx
      rcases List.mem_cons.1 hx with rfl | hx
      · decide
      · obtain ⟨i, hi, rfl⟩ := List.mem_map.1 hx
        exact helpRow_nz _ _ (h3 i hi)) l hl hne 0
  have hfl : (bs "\r\nSupported ConMan Escape Sequences:\r\n" :: (helpItems s n).map fun i => helpRow (s.esc &&& 0x7F) (i.1 &&& 0x7F) i.2).flatten.length < 4096 := by
    rw [List.flatten_cons, List.length_append, hrows]
    have : (bs "\r\nSupported ConMan Escape Sequences:\r\n").length = 38 := by decide
    omega
  unfold helpMsg
  rw [hmap, Option.bind_some, hd, Option.bind_some]
  rw [if_pos hfl] at *
  dsimp only
  rw [if_neg (by omega), Int.toNat_natCast]
  rw [List.take_of_length_le (by omega)] at hc
  obtain ⟨-, b, hb⟩ := cstr_iff.1 hc
  rw [hb, List.take_append_of_le_length (Nat.le_refl _), List.take_length, List.flatten_cons]

/-! ### Keys -/

theorem key_closed (s : CState) (c : UInt8) : (s.key c).1.wrClosed = (s.wrClosed || (!s.done && s.inEsc && decide (c = 0x2E))) := by
  have put : ∀ (s : CState) o, (s.put o).1.wrClosed = s.wrClosed := by
    intro s o; unfold CState.put CState.send; split
    · split <;> rfl
    · rfl
  unfold CState.key
  by_cases hd : s.done = true
  · rw [if_pos hd]; simp [hd]
  · rw [if_neg hd]
    have hd' : s.done = false := by simpa using hd
    dsimp only
    by_cases h1 : ¬ s.inEsc = true ∧ c = s.esc ∧ s.esc < 0x80
    · rw [if_pos h1]
      have : s.inEsc = false := by simpa using h1.1
      simp [this]
    · rw [if_neg h1]
      by_cases h2 : s.inEsc = true
      · rw [if_pos h2]
        cases he : ({ s with inEsc := false } : CState).escape c with
        | none =>
          have hc : c ∉ cmdLetters := (escape_none_iff _ c).1 he
          have hc' : c ≠ 0x2E := fun g => hc (by rw [g]; decide)
          dsimp only
          split
          · rw [put]; simp [hc']
          · rw [put]; simp [hc']
        | some r =>
          have hm : c ∈ cmdLetters := by
            apply Decidable.byContradiction
            intro h
            rw [(escape_none_iff _ c).2 h] at he; simp at he
          obtain ⟨esc, inEsc, cmd, bcast, force, join, quiet, reset, echo, wrClosed, done⟩ := s
          simp only at h2 hd'
          subst h2 hd'
          simp only [cmdLetters, List.mem_cons, List.not_mem_nil, or_false] at hm
          rcases hm with rfl | rfl | rfl | rfl | rfl | rfl | rfl | rfl | rfl | rfl | rfl | rfl | rfl <;>
            cases cmd <;> cases wrClosed <;> cases bcast <;> cases reset <;>
            simp [CState.escape, CState.sendEsc, CState.send] at he <;> subst he <;> simp
      · rw [if_neg h2, put]
        have : s.inEsc = false := by simpa using h2
        simp [this]

theorem key_done (s : CState) (c : UInt8) (h : (s.key c).1.done = true) : s.done = true ∨ s.wrClosed = true := by
  have put : ∀ (s : CState) o, (s.put o).1.done = true → s.done = true ∨ s.wrClosed = true := by
    intro s o; unfold CState.put CState.send; split
    · split
      · intro _; exact Or.inr (by assumption)
      · intro h; exact Or.inl h
    · intro h; exact Or.inl h
  unfold CState.key at h
  by_cases hd : s.done = true
  · exact Or.inl hd
  · rw [if_neg hd] at h
    have hd' : s.done = false := by simpa using hd
    dsimp only at h
    by_cases h1 : ¬ s.inEsc = true ∧ c = s.esc ∧ s.esc < 0x80
    · rw [if_pos h1] at h; exact Or.inl h
    · rw [if_neg h1] at h
      by_cases h2 : s.inEsc = true
      · rw [if_pos h2] at h
        cases he : ({ s with inEsc := false } : CState).escape c with
        | none =>
          rw [he] at h
          dsimp only at h
          split at h
          · exact put { s with inEsc := false } _ h
          · exact put { s with inEsc := false } _ h
        | some r =>
          rw [he] at h
          have hm : c ∈ cmdLetters := by
            apply Decidable.byContradiction
            intro h
            rw [(escape_none_iff _ c).2 h] at he; simp at he
          obtain ⟨esc, inEsc, cmd, bcast, force, join, quiet, reset, echo, wrClosed, done⟩ := s
          simp only at h2 hd'
          subst h2 hd'
          simp only [cmdLetters, List.mem_cons, List.not_mem_nil, or_false] at hm
          cases wrClosed with
          | true => exact Or.inr rfl
          | false =>
            exfalso
            rcases hm with rfl | rfl | rfl | rfl | rfl | rfl | rfl | rfl | rfl | rfl | rfl | rfl | rfl <;>
              cases cmd <;> cases bcast <;> cases reset <;>
              simp [CState.escape, CState.sendEsc, CState.send] at he <;> subst he <;> simp at h
      · rw [if_neg h2] at h; exact put _ _ h

end Conman
