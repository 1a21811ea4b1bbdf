import Verif.Lemma.CStr
import Verif.Lemma.WorldQuiet
import Verif.Spec.Demo

/-
C49: informational messages.
-/
namespace Conman
open Spec

theorem over_take_mid {buf : List UInt8} {i j : Nat} {s : List UInt8} (hi : i ≤ buf.length) (h1 : i ≤ j) (h2 : j ≤ i + s.length) :
    (over buf i s).take j = buf.take i ++ s.take (j - i) := by
  unfold over
  have e : (buf.take i).length = i := by simp; omega
  rw [List.take_append_of_le_length (by simp; omega), List.take_append, List.take_of_length_le (by omega), e]

/-- C49. Whatever the buffer contained, a notification with the text `text` ends up terminated inside its buffer of 1024 bytes; it
is the prefix, the text and the suffix, or, if that is too long, as much of prefix and text as leaves room for the suffix. -/
theorem C49_notify_text (buf text : List UInt8) (h : buf.length = 1024) (hz : (0 : UInt8) ∉ text) :
    ∃ buf', notifyBuf buf text = some buf' ∧ buf'.length = 1024 ∧
      cstr buf' = some (if (msgPrefix ++ text ++ msgSuffix).length < 1024 then msgPrefix ++ text ++ msgSuffix
        else (msgPrefix ++ text).take (1023 - msgSuffix.length) ++ msgSuffix) := by
  have hp : msgPrefix.length = 11 := by decide
  have hs : msgSuffix.length = 3 := by decide
  have hpz : (0 : UInt8) ∉ msgPrefix := by decide
  have hsz : (0 : UInt8) ∉ msgSuffix := by decide
  have hm : maxLine = 1024 := rfl
  have e1 : snprintf buf 0 maxLine msgPrefix = some (over buf 0 (msgPrefix ++ [0]), 11) := by
    rw [snprintf_eq (by omega) (by omega), List.take_of_length_le (by omega), hp]
  have l1 : (over buf 0 (msgPrefix ++ [0])).length = 1024 := by rw [over_length (by simp; omega), h]
  have t1 : (over buf 0 (msgPrefix ++ [0])).take 11 = msgPrefix := by
    rw [over_take_mid (by omega) (by omega) (by simp; omega), List.take_zero, List.nil_append, List.take_append_of_le_length (by omega),
      List.take_of_length_le (by omega)]
  generalize over buf 0 (msgPrefix ++ [0]) = b1 at e1 l1 t1
  have e2 : snprintf b1 11 1013 text = some (over b1 11 (text.take 1012 ++ [0]), text.length) := snprintf_eq (by omega) (by omega)
  have l2 : (over b1 11 (text.take 1012 ++ [0])).length = 1024 := by rw [over_length (by simp; omega), l1]
  have t2 : ∀ j, 11 ≤ j → j ≤ 1023 → j ≤ 11 + text.length → (over b1 11 (text.take 1012 ++ [0])).take j = (msgPrefix ++ text).take j := by
    intro j h1 h2 h3
    rw [over_take_mid (by omega) (by omega) (by simp; omega), t1, List.take_append (l₁ := msgPrefix),
      List.take_of_length_le (l := msgPrefix) (i := j) (by omega), hp,
      List.take_append_of_le_length (by simp; omega), List.take_take]
    congr 2; omega
  generalize over b1 11 (text.take 1012 ++ [0]) = b2 at e2 l2 t2
  have fin : ∀ p len, 11 ≤ p → p ≤ 1020 → p ≤ 11 + text.length → len = 1024 - p →
      ∃ buf', (snprintf b2 p len msgSuffix).map (·.1) = some buf' ∧ buf'.length = 1024 ∧
        cstr buf' = some ((msgPrefix ++ text).take p ++ msgSuffix) := by
    intro p len h1 h2 h3 h4
    rw [snprintf_eq (by omega) (by omega), List.take_of_length_le (by omega)]
    refine ⟨_, rfl, by rw [over_length (by simp; omega), l2], ?_⟩
    refine cstr_over_at (t2 p h1 (by omega) h3) (fun hm => ?_) hsz
    rcases List.mem_append.1 (List.mem_of_mem_take hm) with h | h
    · exact hpz h
    · exact hz h
  unfold notifyBuf
  rw [e1, Option.bind_some]
  dsimp only
  rw [if_neg (by omega : ¬ 11 ≥ maxLine)]
  dsimp only
  rw [if_pos (by omega), hm, e2, Option.map_some, Option.bind_some]
  dsimp only
  rw [hs]
  simp only [List.length_append, hp, hs]
  by_cases h1 : text.length ≤ 1009
  · rw [if_neg (by omega : ¬ text.length ≥ 1024 - 11)]
    dsimp only
    rw [if_neg (by omega : ¬ 1024 - 11 - text.length < 3 + 1), if_pos (by omega)]
    dsimp only
    obtain ⟨b3, f1, f2, f3⟩ := fin (11 + text.length) (1024 - 11 - text.length) (by omega) (by omega) (by omega) (by omega)
    refine ⟨b3, f1, f2, ?_⟩
    rw [f3, List.take_of_length_le (by simp; omega)]
  · obtain ⟨b3, f1, f2, f3⟩ := fin 1020 4 (by omega) (by omega) (by omega) (by omega)
    rw [if_neg (by omega : ¬ 11 + text.length + 3 < 1024)]
    refine ⟨b3, ?_, f2, f3⟩
    rw [← f1]
    by_cases h2 : text.length ≥ 1024 - 11
    · rw [if_pos h2]; dsimp only; rw [if_pos (by omega)]
    · rw [if_neg h2]; dsimp only; rw [if_pos (by omega)]

/-- C49. The messages about clients coming and going, of complete text `s`: terminated inside the buffer of 1024 bytes; complete if
they have at most 1020 bytes, else cut after 1021 bytes; a cut message ends in CR LF. -/
theorem C49_link_text (buf s : List UInt8) (h : buf.length = 1024) (hz : (0 : UInt8) ∉ s) :
    ∃ buf', linkBuf buf s = some buf' ∧ buf'.length = 1024 ∧
      cstr buf' = some (if s.length < 1021 then s else s.take 1021 ++ [0x0D, 0x0A]) := by
  have hm : maxLine = 1024 := rfl
  unfold linkBuf
  rw [snprintf_eq (by omega) (by omega), Option.bind_some, hm]
  dsimp only
  rw [show (1024 : Nat) - 1 = 1023 from rfl, show (1024 : Nat) - 3 = 1021 from rfl]
  have l1 : (over buf 0 (s.take 1023 ++ [0])).length = 1024 := by rw [over_length (by simp; omega), h]
  rw [pokes_eq _ (by simp only [List.length_cons, List.length_nil]; omega)]
  refine ⟨_, rfl, by rw [over_length (by simp only [List.length_cons, List.length_nil]; omega), l1], ?_⟩
  by_cases h1 : s.length < 1021
  · rw [if_pos h1]
    have e : over (over buf 0 (s.take 1023 ++ [0])) 1021 [0x0D, 0x0A, 0] =
        s ++ 0 :: (((over buf 0 (s.take 1023 ++ [0])).take 1021).drop (s.length + 1) ++ [0x0D, 0x0A, 0]) := by
      have e3 : (over buf 0 (s.take 1023 ++ [0])).take (s.length + 1) = s ++ [0] := by
        rw [over_take_mid (by omega) (by omega) (by simp; omega), List.take_of_length_le (l := s) (by omega),
          List.take_of_length_le (l := s ++ [0]) (by simp)]
        rfl
      have e4 : ((over buf 0 (s.take 1023 ++ [0])).take 1021).take (s.length + 1) = s ++ [0] := by
        rw [List.take_take, ← e3]; congr 1; omega
      have e5 := List.take_append_drop (s.length + 1) ((over buf 0 (s.take 1023 ++ [0])).take 1021)
      rw [e4] at e5
      generalize over buf 0 (s.take 1023 ++ [0]) = x1 at l1 e5 ⊢
      unfold over
      rw [show ∀ x : List UInt8, x.drop (1021 + [(0x0D : UInt8), 0x0A, 0].length) = x.drop 1024 from fun _ => rfl]
      rw [List.drop_eq_nil_of_le (Nat.le_of_eq l1), List.append_nil]
      generalize x1.take 1021 = x at e5 ⊢
      conv => lhs; rw [← e5]
      simp
    have := cstr_app (b := ((over buf 0 (s.take 1023 ++ [0])).take 1021).drop (s.length + 1) ++ [0x0D, 0x0A, 0]) hz
    rw [← e] at this
    exact this
  · rw [if_neg h1]
    refine cstr_over_at (d := [0x0D, 0x0A]) (a := s.take 1021) ?_ (fun hm => hz (List.mem_of_mem_take hm)) (by decide)
    rw [over_take_mid (by omega) (by omega) (by simp; omega), List.take_zero, List.nil_append,
      List.take_append_of_le_length (by simp; omega), List.take_take]
    congr 1

/-- What one copy of an informational message does to an object: nothing if it reached end-of-file or is a client in quiet mode, else the message
is appended. -/
def hears (o : Obj) (m : List UInt8) : List UInt8 :=
  if o.eof = true ∨ (o.kind = .client ∧ o.quiet = true) then o.pend else lastN queueCap (o.pend ++ m)

theorem write_hears (o : Obj) (m : List UInt8) (hm : m.length < 1024) (hc : o.pend.length ≤ queueCap) : (o.write m true).pend = hears o m := by
  unfold hears
  by_cases he : o.eof = true
  · rw [if_pos (Or.inl he), o.write_of_eof m true he]
  · by_cases hq : o.kind = .client ∧ o.quiet = true
    · rw [if_pos (Or.inr hq), o.write_of_quiet m hq.1 hq.2]
    · rw [if_neg (by simp only [not_or]; exact ⟨he, hq⟩), o.write_info_pend m (by simpa using he) hq hc,
        enq_le _ _ (by have : (1024 : Nat) ≤ queueCap := by unfold queueCap; omega
                       omega)]

/-- C49. A notification about console `con`: exactly one copy for every reader and writer of the console (`hears`), and nothing for
anybody else. -/
theorem C49_notify_once {env : Env} {w : World} (h : Reachable env w) (con : Nat) (n : Note) (hm : (env.txt n w.tick).length < 1024) (j : Nat) :
    ((w.notify env con n).obj j).pend =
      if j ∈ (w.obj con).readers ∨ j ∈ (w.obj con).writers then hears (w.obj j) (env.txt n w.tick) else (w.obj j).pend := by
  rw [(notify_exact h.inv.inv.l env con n).1 j]
  by_cases hj : j ∈ (w.obj con).readers ∨ j ∈ (w.obj con).writers
  · rw [if_pos hj, if_pos hj, write_hears _ _ hm (h.inv.inv.oi j).cap]
  · rw [if_neg hj, if_neg hj]

/-- C49. When a console's connection comes up, everybody attached gets exactly one copy of the message, and nobody else hears of it. -/
theorem C49_connected_once {env : Env} {w w' : World} (h : Reachable env w) (i : Nat) (hl : i ∈ w.live) (hk : (w.obj i).kind.isConsole = true)
    (ht : (w.obj i).kind ≠ .test) (hf : (w.obj i).fd = false) (hs : w.step env (.connUp i) = some w')
    (hm : (env.txt (.connected i) w.tick).length < 1024) (j : Nat) (hj : j ≠ i) :
    (w'.obj j).pend = if j ∈ (w.obj i).readers ∨ j ∈ (w.obj i).writers then hears (w.obj j) (env.txt (.connected i) w.tick)
      else (w.obj j).pend := by
  simp only [World.step, if_pos hl, Option.some.injEq] at hs
  subst hs
  unfold World.connUp
  dsimp only
  rw [if_neg (by simp [hk]), if_neg (by simp [hf]), if_neg ht]
  have e : ∀ v : World, ((if (w.obj i).kind = .telnet then v.mod i (·.write telHello false) else v).obj j) = v.obj j := by
    intro v; split
    · simp [World.mod, hj]
    · rfl
  rw [e]
  have hSL : SL w (w.mod i (fun o => { o with fd := true, pin := true, conn := .up, eof := false })) := by
    refine ⟨fun k => ?_, rfl⟩
    by_cases hk : k = i <;> simp [World.mod, hk]
  have ex := (notify_exact (h.inv.inv.l.same hSL) env i (.connected i)).1 j
  rw [ex, (hSL.1 i).2.1, (hSL.1 i).2.2]
  have ej : (w.mod i (fun o => { o with fd := true, pin := true, conn := .up, eof := false })).obj j = w.obj j := by simp [World.mod, hj]
  rw [ej, show (w.mod i (fun o => { o with fd := true, pin := true, conn := .up, eof := false })).tick = w.tick from rfl]
  by_cases hj : j ∈ (w.obj i).readers ∨ j ∈ (w.obj i).writers
  · rw [if_pos hj, if_pos hj, write_hears _ _ hm (h.inv.inv.oi j).cap]
  · rw [if_neg hj, if_neg hj]

/-- Clients 10 (quiet) and 12 are attached to console 0 before it is up. -/
def Demo.early : List Step := [.connUp 2, .check ⟨.connect, [0], false, false, false, true⟩, .grant 10 0, .check Demo.mon, .grant 12 0]

example : let w := Demo.after Demo.early
    let w' := Demo.after (Demo.early ++ [.connUp 0])
    Reachable Demo.env w ∧ 0 ∈ w.live ∧ (w.obj 0).kind = .serial ∧ (w.obj 0).fd = false ∧ (Demo.env.txt (.connected 0) w.tick).length < 1024 ∧
    10 ∈ (w.obj 0).readers ∧ 12 ∈ (w.obj 0).readers ∧ 1 ∈ (w.obj 0).readers ∧ (w.obj 12).pend = [0x6E] ∧ (w'.obj 12).pend = [0x6E, 0x6E] ∧
    (w'.obj 10).pend = (w.obj 10).pend ∧ (w'.obj 1).pend = (w.obj 1).pend ++ [0x6E] :=
  ⟨Demo.reach _ (by decide +kernel), by decide +kernel, by decide +kernel, by decide +kernel, by decide +kernel, by decide +kernel,
    by decide +kernel, by decide +kernel, by decide +kernel, by decide +kernel, by decide +kernel, by decide +kernel⟩

example : ((notifyBuf (List.replicate 1024 0xAA) (bs "hi")).bind cstr) = some (bs "\r\n<ConMan> hi.\r\n") ∧
    ((linkBuf (List.replicate 1024 0xAA) (bs "hi")).bind cstr) = some (bs "hi") := by
  decide +kernel

/-- Texts that are too long exist: one of 2000 bytes. -/
example : ∃ buf', notifyBuf (List.replicate 1024 0xAA) (List.replicate 2000 0x78) = some buf' ∧
    cstr buf' = some (msgPrefix ++ List.replicate 1009 0x78 ++ msgSuffix) := by
  obtain ⟨b, h1, _, h3⟩ := C49_notify_text (List.replicate 1024 0xAA) (List.replicate 2000 0x78) (List.length_replicate ..)
    (fun h => absurd (List.eq_of_mem_replicate h) (by decide))
  have hp : msgPrefix.length = 11 := by decide
  have hs : msgSuffix.length = 3 := by decide
  refine ⟨b, h1, ?_⟩
  rw [h3, if_neg (by simp only [List.length_append, List.length_replicate]; omega), hs, List.take_append, hp, List.take_replicate,
    List.take_of_length_le (by omega)]
  rfl

end Conman
