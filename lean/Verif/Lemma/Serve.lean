import Verif.Model.Serve
import Verif.Lemma.ProtoAny
import Verif.Props.CStr
import Verif.Props.File
import Verif.Props.Name
import Verif.Props.Links

/-
Lemmas about the server's side of a request.
-/
namespace Conman
open Spec

/-! ### Selecting -/

theorem msl : maxSockLine = 131072 := rfl

theorem alternation_cons2 (p q : List UInt8) (ps : List (List UInt8)) : alternation (p :: q :: ps) = p ++ [0x7C] ++ alternation (q :: ps) := rfl

theorem alternation_length (p : List UInt8) (ps : List (List UInt8)) : (alternation (p :: ps)).length = p.length + (ps.map fun x => x.length + 1).sum := by
  induction ps generalizing p with
  | nil => simp [alternation]
  | cons q ps ih => rw [alternation_cons2, List.length_append, List.length_append, ih q]; simp; omega

theorem alternation_fold (d p : List UInt8) (ps : List (List UInt8)) :
    d ++ [0x7C] ++ alternation (p :: ps) = alternation ((d ++ [0x7C] ++ p) :: ps) := by
  cases ps with
  | nil => rfl
  | cons q ps => rw [alternation_cons2, alternation_cons2]; simp only [List.append_assoc]

theorem joinMore_eq (ps : List (List UInt8)) : ∀ {buf d : List UInt8}, maxSockLine ≤ buf.length → cstr buf = some d → (∀ p ∈ ps, (0 : UInt8) ∉ p) →
    (alternation (d :: ps)).length < maxSockLine → ∃ b, joinMore buf ps = some b ∧ cstr b = some (alternation (d :: ps)) := by
  have bar : bs "|" = [0x7C] := by decide
  induction ps with
  | nil => intro buf d _ hd _ _; exact ⟨buf, rfl, hd⟩
  | cons p ps ih =>
    intro buf d hb hd hz hl
    have hl' := hl
    rw [alternation_cons2, alternation_fold, alternation_length] at hl'
    simp only [List.length_append, List.length_singleton] at hl'
    obtain ⟨b1, e1, f1, -, g1⟩ := C23_strlcat buf d (bs "|") maxSockLine hb hd (by omega) (by decide)
    rw [List.take_of_length_le (by rw [bar, List.length_append, List.length_singleton]; omega)] at g1
    obtain ⟨b2, e2, f2, -, g2⟩ := C23_strlcat b1 _ p maxSockLine (by omega) g1 (by rw [bar, List.length_append, List.length_singleton]; omega) (hz p (List.mem_cons_self ..))
    rw [List.take_of_length_le (by rw [bar]; simp only [List.length_append, List.length_singleton]; omega), bar] at g2
    obtain ⟨b, e, f⟩ := ih (buf := b2) (by omega) g2 (fun x hx => hz x (List.mem_cons_of_mem _ hx)) (by rw [← alternation_fold, ← alternation_cons2]; exact hl)
    refine ⟨b, ?_, ?_⟩
    · unfold joinMore
      rw [e1, Option.bind_some, e2, Option.bind_some, e]
    · rw [f, ← alternation_fold, ← alternation_cons2]

theorem joinPats_eq {stk : List UInt8} (hs : maxSockLine ≤ stk.length) {pats : List (List UInt8)} (hz : ∀ p ∈ pats, (0 : UInt8) ∉ p)
    (hl : (alternation pats).length < maxSockLine) : joinPats stk pats = some (if pats = [] then [0x2E, 0x2A] else alternation pats) := by
  have key : ∀ p ps, (∀ x ∈ p :: ps, (0 : UInt8) ∉ x) → (alternation (p :: ps)).length < maxSockLine →
      ((strlcpy (stk.take maxSockLine) 0 p maxSockLine).bind fun r => (joinMore r.1 ps).bind cstr) = some (alternation (p :: ps)) := by
    intro p ps hz hl
    have hl' := hl
    rw [alternation_length] at hl'
    obtain ⟨b, e, f, -, g⟩ := C23_strlcpy (stk.take maxSockLine) p maxSockLine (by rw [List.length_take]; omega) (hz p (List.mem_cons_self ..))
    have g := g (by rw [msl]; omega)
    rw [List.take_of_length_le (by omega)] at g
    obtain ⟨b2, e2, f2⟩ := joinMore_eq ps (buf := b) (by rw [f, List.length_take]; omega) g (fun x hx => hz x (List.mem_cons_of_mem _ hx)) hl
    rw [e, Option.bind_some, e2, Option.bind_some, f2]
  unfold joinPats
  cases pats with
  | nil => rw [if_pos rfl, if_pos rfl]; exact key (bs ".*") [] (by decide) (by rw [msl]; decide)
  | cons p ps => rw [if_neg (by simp), if_neg (by simp)]; exact key p ps hz hl

theorem finRange_filter {sw : SrvWorld} (P : List UInt8 → Bool) :
    ((List.finRange sw.cons.length).filter fun i => P (sw.name i)).map (fun (i : sw.Con) => sw.cons[i]) = sw.cons.filter fun c => P c.name := by
  have : sw.cons = (List.finRange sw.cons.length).map fun (i : Fin sw.cons.length) => sw.cons[i] := by
    apply List.ext_getElem
    · simp
    · intro i h1 h2; simp
  conv => rhs; rw [this]
  rw [List.filter_map]
  rfl

theorem srvQuery_eq {sw : SrvWorld} {stk : List UInt8} (hs : maxSockLine ≤ stk.length) {q : SrvReq} (hq : q.cmd = some .query ∨ q.consoles ≠ [])
    (hz : ∀ p ∈ q.consoles, (0 : UInt8) ∉ p) (hl : (alternation q.consoles).length < maxSockLine) :
    (q.regex = true ∧ sw.rex (if q.consoles = [] then [0x2E, 0x2A] else alternation q.consoles) = none ∧
      srvQuery sw stk q = some (.inl ((sw.rexErr (if q.consoles = [] then [0x2E, 0x2A] else alternation q.consoles)).take (maxSockLine - 1)))) ∨
    ((q.regex = true → sw.rex (if q.consoles = [] then [0x2E, 0x2A] else alternation q.consoles) ≠ none) ∧
      ∃ l, (l.map fun (i : sw.Con) => sw.cons[i]).Perm (selection sw q.regex q.consoles) ∧ srvQuery sw stk q = some (.inr (Seq.sorted sw.cmp l))) := by
  have hne : ¬ (q.consoles = [] ∧ q.cmd ≠ some .query) := by
    rintro ⟨h1, h2⟩; rcases hq with h | h
    · exact h2 h
    · exact h h1
  unfold srvQuery
  rw [if_neg hne]
  by_cases hr : q.regex = true
  · rw [if_pos hr, joinPats_eq hs hz hl, Option.map_some]
    generalize hp : (if q.consoles = [] then [0x2E, 0x2A] else alternation q.consoles) = pat
    cases hx : sw.rex pat with
    | none => exact Or.inl ⟨hr, rfl, rfl⟩
    | some f =>
      refine Or.inr ⟨by simp, _, ?_, rfl⟩
      have : selection sw q.regex q.consoles = sw.cons.filter fun c => (fun n => decide (f n = some (0, n.length))) c.name := by
        unfold selection selected
        rw [hr, hp]
        congr 1
        funext c
        rw [if_pos rfl, hx]
      rw [this, ← finRange_filter (fun n => decide (f n = some (0, n.length)))]
  · rw [if_neg hr]
    refine Or.inr ⟨fun h => absurd h hr, _, ?_, rfl⟩
    have : selection sw q.regex q.consoles = sw.cons.filter fun c => (fun n => (if q.consoles = [] then [[0x2A]] else q.consoles).any fun p => sw.glob p n) c.name := by
      unfold selection selected
      congr 1
      funext c
      rw [if_neg hr]
    rw [this, ← finRange_filter (fun n => (if q.consoles = [] then [[0x2A]] else q.consoles).any fun p => sw.glob p n)]
    apply List.Perm.map
    obtain ⟨h1, h2⟩ := C64_selection (fun p (i : sw.Con) => sw.glob p (sw.name i)) (bs "*") (List.finRange sw.cons.length) q.consoles
    refine (List.perm_ext_iff_of_nodup h1 ((List.nodup_finRange _).filter _)).2 fun i => ?_
    rw [h2, List.mem_filter, List.any_eq_true]
    refine and_congr_right fun _ => ?_
    have star : bs "*" = [0x2A] := by decide
    by_cases he : q.consoles = []
    · rw [if_pos he, he]; simp [star]
    · rw [if_neg he]; simp [he]

theorem sorted_cmp {sw : SrvWorld} {names : List (List UInt8)} (h : Orderly names) (hn : ∀ c ∈ sw.cons, c.name ∈ names) (l : List sw.Con) :
    (Seq.sorted sw.cmp l).Pairwise fun i j => ∃ v, compareObjs (sw.name i) (sw.name j) = some v ∧ v ≤ 0 := by
  obtain ⟨h1, h2⟩ := C31_consistent_partial names h
  have mem : ∀ i : sw.Con, sw.name i ∈ names := fun i => hn _ (List.getElem_mem ..)
  have e : ∀ i j : sw.Con, sw.cmp i j = (fun x y : {x // x ∈ names} => (compareObjs x.1 y.1).getD 0) ⟨_, mem i⟩ ⟨_, mem j⟩ := by
    intro i j
    have := h1 _ (mem i) _ (mem j)
    unfold SrvWorld.cmp
    cases hc : compareObjs (sw.name i) (sw.name j) with
    | none => rw [hc] at this; simp at this
    | some v => simp [hc]
  have := (SeqL.sorted_ok (f := sw.cmp) (fun x y => by rw [e, e]; exact h2.anti _ _) (fun x y z => by rw [e, e, e]; exact h2.trans _ _ _) l).2.1
  refine this.imp fun {i j} hij => ?_
  have hs := h1 _ (mem i) _ (mem j)
  unfold SrvWorld.cmp at hij
  cases hc : compareObjs (sw.name i) (sw.name j) with
  | none => rw [hc] at hs; simp at hs
  | some v => rw [hc] at hij; exact ⟨v, rfl, hij⟩

/-! ### Lines -/

theorem nameLine_eq {stk name : List UInt8} (hs : maxSockLine ≤ stk.length) (hz : (0 : UInt8) ∉ name) (hl : name.length ≤ 1023) :
    nameLine stk name = some (name ++ bs "\n") := by
  have hm := msl
  obtain ⟨b, e, f, -, g⟩ := C23_strlcpy (stk.take maxSockLine) name maxSockLine (by rw [List.length_take]; omega) hz
  have g := g (by omega)
  rw [List.take_of_length_le (by omega)] at g
  have nl : bs "\n" = [0x0A] := by decide
  obtain ⟨b2, e2, -, -, g2⟩ := C23_strlcat b name (bs "\n") maxSockLine (by rw [f, List.length_take]; omega) g (by omega) (by decide)
  rw [List.take_of_length_le (by rw [List.length_append, nl, List.length_singleton]; omega)] at g2
  unfold nameLine
  rw [e, Option.bind_some, e2, Option.bind_some, g2]

theorem busyLine_eq {stk : List UInt8} (hs : maxSockLine ≤ stk.length) {con : SrvCon} {w : SrvWriter} (hz : (0 : UInt8) ∉ inUse con w) :
    busyLine stk con w = some (if (inUse con w).length < 1022 then inUse con w else (inUse con w).take 1022 ++ bs "\n") := by
  have hm : maxLine = 1024 := rfl
  have hm2 := msl
  unfold busyLine
  change ((snprintf (stk.take maxLine) 0 maxLine (inUse con w)).bind _) = _
  generalize inUse con w = t at hz
  have nl : bs "\n" = [0x0A] := by decide
  have hlen : (stk.take 1024).length = 1024 := by rw [List.length_take]; omega
  rw [hm, snprintf_eq (by omega) (by rw [hlen]; omega), Option.bind_some]
  dsimp only
  have hol : (over (stk.take 1024) 0 (t.take (1024 - 1) ++ [0])).length = 1024 := by
    rw [over_length (by rw [hlen]; simp; omega), hlen]
  rw [pokes_eq _ (by rw [hol]; decide), Option.bind_some]
  by_cases h : t.length < 1022
  · rw [if_pos h, List.take_of_length_le (by omega : t.length ≤ 1024 - 1)]
    rw [cstr_iff]
    refine ⟨hz, ?_⟩
    unfold over
    simp only [List.take_zero, List.nil_append, Nat.zero_add, List.append_assoc]
    have : ([0] : List UInt8) ++ (stk.take 1024).drop (t ++ [0]).length = 0 :: (stk.take 1024).drop (t ++ [0]).length := rfl
    rw [List.take_append, List.take_of_length_le (by omega : t.length ≤ 1024 - 2), List.append_assoc]
    obtain ⟨k, hk⟩ : ∃ k, 1024 - 2 - t.length = k + 1 := ⟨1021 - t.length, by omega⟩
    rw [hk, this, List.take_succ_cons, List.cons_append]
    exact ⟨_, rfl⟩
  · rw [if_neg h]
    rw [nl, show ([0x0A, 0] : List UInt8) = [0x0A] ++ [0] from rfl]
    refine cstr_over_at ?_ (fun g => hz (List.mem_of_mem_take g)) (by decide)
    unfold over
    simp only [List.take_zero, List.nil_append, Nat.zero_add, List.append_assoc]
    rw [List.take_append_of_le_length (by rw [List.length_take]; omega), List.take_take]
    rfl

end Conman
