import Verif.Lemma.Disk
import Verif.Lemma.Whole
import Verif.Props.ConfCon
import Verif.Props.LogBook

/-! The names logs are opened by. -/
namespace Conman
open Spec

theorem openName_plain (pid : Int) (tm : UInt8 → List UInt8) (l : LogReq) (h : (0x25 : UInt8) ∉ l.name) : openName pid tm l = some (some l.name) := by
  unfold openName; rw [if_neg h]

/-- The name is the expansion, if it fits. -/
theorem openName_expand {pid : Int} {tm : UInt8 → List UInt8} {l : LogReq} {x : List UInt8} (htm : ∀ c ∈ timeLetters, tm c ≠ []) (hl : loneEnd l.name = false)
    (h25 : (0x25 : UInt8) ∈ l.name) (h0 : (0 : UInt8) ∉ expand (some l.con) pid tm l.name) (h : openName pid tm l = some (some x)) : x = expand (some l.con) pid tm l.name := by
  unfold openName at h
  rw [if_pos h25] at h
  obtain ⟨b, rc, hf, hlen, hfit, hno⟩ := C41_expansion_partial (o := some l.con) (pid := pid) htm (buf := List.replicate maxLine 0) (fmt := l.name)
    (fun h => by have := congrArg List.length h; rw [List.length_replicate] at this; exact absurd this (by decide)) hl
  rw [hf] at h
  dsimp only [Option.bind_some] at h
  by_cases hs : (expand (some l.con) pid tm l.name).length < (List.replicate maxLine (0 : UInt8)).length
  · obtain ⟨hrc, rest, hb⟩ := hfit hs
    rw [if_neg (by rw [hrc]; omega), hb, cstr_app h0] at h
    simpa using h.symm
  · obtain ⟨hrc, _⟩ := hno (by omega)
    rw [if_pos (by rw [hrc]; decide)] at h
    cases h

theorem expand_pre (o : Option FObj) (pid : Int) (tm : UInt8 → List UInt8) (s : List UInt8) : ∀ pre : List UInt8, (0x25 : UInt8) ∉ pre →
    expand o pid tm (pre ++ s) = pre ++ expand o pid tm s ∧ (s ≠ [] → loneEnd (pre ++ s) = loneEnd s)
  | [], _ => ⟨rfl, fun _ => rfl⟩
  | c :: pre, h => by
    simp only [List.mem_cons, not_or] at h
    obtain ⟨i1, i2⟩ := expand_pre o pid tm s pre h.2
    rw [List.cons_append, List.cons_append]
    cases hp : pre ++ s with
    | nil =>
      obtain ⟨e1, e2⟩ := List.append_eq_nil_iff.1 hp
      subst e1 e2
      exact ⟨rfl, fun g => absurd rfl g⟩
    | cons a l =>
      rw [hp] at i1 i2
      rw [expand, loneEnd, if_neg (fun e => h.1 e.symm), if_neg (fun e => h.1 e.symm), i1]
      exact ⟨rfl, i2⟩

theorem expand_post (o : Option FObj) (pid : Int) (tm : UInt8 → List UInt8) (s : List UInt8) (h : (0x25 : UInt8) ∉ s) : expand o pid tm s = s ∧ loneEnd s = false := by
  have h1 := (expand_pre o pid tm [] s h).1
  rw [List.append_nil] at h1
  refine ⟨by rw [h1]; exact List.append_nil s, ?_⟩
  clear h1
  induction s with
  | nil => rfl
  | cons a s ih =>
    simp only [List.mem_cons, not_or] at h
    cases s with
    | nil => simp only [loneEnd, decide_eq_false_iff_not]; exact fun e => h.1 e.symm
    | cons b s =>
      rw [loneEnd, if_neg (fun e => h.1 e.symm)]; exact ih h.2

/-- `%N` for a console whose name has ordinary characters only. -/
theorem expand_name (con : FObj) (pid : Int) (tm : UInt8 → List UInt8) (hc : con.console = true) (hn : ∀ b ∈ con.name, fileOk b = true) (pre post : List UInt8)
    (h1 : (0x25 : UInt8) ∉ pre) (h2 : (0x25 : UInt8) ∉ post) :
    expand (some con) pid tm (pre ++ 0x25 :: 0x4E :: post) = pre ++ con.name ++ post ∧ loneEnd (pre ++ 0x25 :: 0x4E :: post) = false := by
  have hm : con.name.map fileChar = con.name := by
    conv => rhs; rw [← List.map_id con.name]
    refine List.map_congr_left fun b hb => ?_
    unfold fileChar; rw [if_pos (hn b hb)]; rfl
  refine ⟨?_, ?_⟩
  · rw [(expand_pre _ pid tm _ pre h1).1, expand, if_pos rfl, (expand_post _ pid tm post h2).1]
    unfold specifier
    rw [if_pos rfl]
    dsimp only
    rw [if_pos hc, hm, List.append_assoc]
  · rw [(expand_pre (some con) pid tm _ pre h1).2 (by simp), loneEnd, if_pos rfl]
    exact (expand_post (some con) pid tm post h2).2

theorem logAt_eq (c : SConf) (n : Nat) (k : Console) (l : List UInt8 × LogOpt) (hn : c.consoles[n]? = some k) (hl : k.log = some l) : c.logAt (2 * n + 1) = some (k, l) := by
  unfold SConf.logAt
  rw [if_pos (by omega), show (2 * n + 1) / 2 = n by omega, hn, Option.bind_some, hl]; rfl

theorem logAt_some (c : SConf) (m : Nat) (k : Console) (l : List UInt8 × LogOpt) (h : c.logAt m = some (k, l)) : ∃ n, m = 2 * n + 1 ∧ c.consoles[n]? = some k ∧ k.log = some l := by
  unfold SConf.logAt at h
  split at h
  · rename_i hm
    rw [Option.bind_eq_some_iff] at h
    obtain ⟨k', h1, h2⟩ := h
    rw [Option.map_eq_some_iff] at h2
    obtain ⟨l', h2, h3⟩ := h2
    cases h3
    exact ⟨m / 2, by omega, h1, h2⟩
  · cases h

theorem logName_some (c : SConf) (pid : Int) (tm : UInt8 → List UInt8) (m : Nat) (x : List UInt8) (h : c.logName pid tm m = some (some x)) :
    ∃ n k l, m = 2 * n + 1 ∧ c.consoles[n]? = some k ∧ k.log = some l ∧ openName pid tm ⟨k.fobj, l.1⟩ = some (some x) := by
  unfold SConf.logName at h
  split at h
  · cases h
  · rename_i k l hl
    obtain ⟨n, h1, h2, h3⟩ := logAt_some c m k l hl
    exact ⟨n, k, l, h1, h2, h3, h⟩

/-- The log of a console at the beginning. -/
theorem world_log (c : SConf) (n : Nat) (k : Console) (l : List UInt8 × LogOpt) (hn : c.consoles[n]? = some k) (hl : k.log = some l) :
    (c.world.obj (2 * n + 1)).kind = .logfile ∧ 2 * n + 1 ∈ c.world.live ∧ (c.world.obj (2 * n + 1)).fd = false := by
  have hc : (c.consoles.map c.entry)[n]? = some (c.entry k) := by rw [List.getElem?_map, hn]; rfl
  have he : (c.entry k).log = some ⟨l.2.sanitize, l.2.timestamp⟩ := by show k.log.map _ = _; rw [hl]; rfl
  have hk : ((World.boot (c.consoles.map c.entry)).obj (2 * n + 1)) = { kind := .logfile, opts := ⟨l.2.sanitize, l.2.timestamp⟩, writers := [2 * n] } := by
    simp only [World.boot]
    rw [show (2 * n + 1) / 2 = n by omega, hc]
    dsimp only
    rw [if_neg (by omega), he]
    simp
  refine ⟨?_, (boot_live _ _).2 ⟨_, by rw [show (2 * n + 1) / 2 = n by omega]; exact hc, .inr (by rw [he]; rfl)⟩, ?_⟩
  · show ((World.boot _).obj _).kind = _; rw [hk]
  · show ((World.boot _).obj _).fd = _; rw [hk]

end Conman
