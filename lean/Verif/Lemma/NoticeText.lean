import Verif.Model.NoticeText
import Verif.Props.Notice
import Verif.Lemma.Dec
import Verif.Spec.Screen
import Verif.Spec.LogBook

/-
Lemmas about the texts of notices.
-/
namespace Conman
open Spec

theorem bs_append (a b : String) : bs a ++ bs b = bs (a ++ b) := by
  unfold bs
  rw [String.toList_append, List.map_append]

theorem bs_bs (a b : String) (x : List UInt8) : bs a ++ (bs b ++ x) = bs (a ++ b) ++ x := by
  rw [← bs_append, List.append_assoc]

theorem prefix_length : msgPrefix.length = 11 := by decide
theorem suffix_length : msgSuffix.length = 3 := by decide

theorem whole_nz {m : List UInt8} (h : (0 : UInt8) ∉ m) : (0 : UInt8) ∉ msgPrefix ++ m ++ msgSuffix := by
  simp only [List.mem_append, not_or]
  exact ⟨⟨by decide, h⟩, by decide⟩

theorem whole_length (m : List UInt8) : (msgPrefix ++ m ++ msgSuffix).length = m.length + 14 := by
  simp only [List.length_append, prefix_length, suffix_length]; omega

theorem link_text {m : List UInt8} (h : (0 : UInt8) ∉ m) : NBuf.link.text m =
    if m.length < 1007 then msgPrefix ++ m ++ msgSuffix else (msgPrefix ++ m ++ msgSuffix).take 1021 ++ [0x0D, 0x0A] := by
  obtain ⟨b, h1, -, h3⟩ := C49_link_text (List.replicate maxLine 0) (msgPrefix ++ m ++ msgSuffix) List.length_replicate (whole_nz h)
  unfold NBuf.text
  dsimp only
  rw [h1, Option.bind_some, h3, Option.getD_some, whole_length]
  by_cases hm : m.length < 1007
  · rw [if_pos hm, if_pos (by omega)]
  · rw [if_neg hm, if_neg (by omega)]

theorem notify_text {m : List UInt8} (h : (0 : UInt8) ∉ m) : NBuf.notify.text m =
    if m.length < 1010 then msgPrefix ++ m ++ msgSuffix else (msgPrefix ++ m).take 1020 ++ msgSuffix := by
  obtain ⟨b, h1, -, h3⟩ := C49_notify_text (List.replicate maxLine 0) m List.length_replicate h
  unfold NBuf.text
  dsimp only
  rw [h1, Option.bind_some, h3, Option.getD_some, whole_length, suffix_length]
  by_cases hm : m.length < 1010
  · rw [if_pos hm, if_pos (by omega)]
  · rw [if_neg hm, if_neg (by omega)]

theorem fmt_text {m : List UInt8} (h : (0 : UInt8) ∉ m) : NBuf.fmt.text m = (msgPrefix ++ m ++ msgSuffix).take 1023 := by
  unfold NBuf.text
  dsimp only
  have hl : (List.replicate maxLine (0 : UInt8)).length = 1024 := List.length_replicate
  rw [snprintf_eq (by unfold maxLine; omega) (by rw [hl]; unfold maxLine; omega), Option.bind_some]
  have := cstr_over_at (buf := List.replicate maxLine 0) (i := 0) (a := []) (d := (msgPrefix ++ m ++ msgSuffix).take (maxLine - 1)) rfl (by simp)
    (fun hm => whole_nz h (List.mem_of_mem_take hm))
  rw [this]; rfl

/-- The formatted message is the sentence. -/
theorem body_sentence (f : Facts) (n : Note) : noticeBody f n = sentence f n := by
  have hc : ∀ w : SrvWriter, idArgs w = clientText w := by
    intro w; unfold idArgs clientText
    cases w.tty <;> simp
  have hp : ∀ args, progOf args = lastPart (args.headD []) := by
    intro args; unfold progOf lastPart
    dsimp only
    split
    · rfl
    · rename_i hx
      generalize args.headD [] = a at hx
      have : ∀ l : List UInt8, 0x2F ∉ l → l.takeWhile (· ≠ 0x2F) = l := by
        intro l hl
        induction l with
        | nil => rfl
        | cons x l ih =>
          simp only [List.mem_cons, not_or] at hl
          rw [List.takeWhile_cons, if_pos (by simpa using fun e => hl.1 e.symm), ih hl.2]
      rw [this _ (by rwa [List.mem_reverse]), List.reverse_reverse]
  have hd : ∀ d, devArg d = peerName d := by
    intro d; cases d <;> simp only [devArg, peerName, hp]
  cases n <;> simp only [noticeBody, sentence, theCon, hc, hd, failBody, pidOf, runTime, failReason, List.append_assoc, bs_append, bs_bs, String.reduceAppend]
  case connected d => cases f.dev d <;> simp [ConDev.isProcess]
  case disconnected d => cases f.dev d <;> simp [ConDev.isProcess, bs_append, bs_bs, String.reduceAppend]
  case connFailed d => cases f.why <;> simp [hd, List.append_assoc, bs_append, bs_bs, String.reduceAppend]

theorem dec_print (n : Nat) : ∀ b ∈ dec n, isPrint b = true := by
  intro b hb
  have h := (dec_spec n).2.1 b hb
  unfold digit at h
  unfold isPrint
  simp only [Bool.and_eq_true, decide_eq_true_eq, UInt8.le_iff_toNat_le] at h ⊢
  simp only [UInt8.toNat_ofNat] at h ⊢
  omega

theorem decInt_print (n : Int) : ∀ b ∈ decInt n, isPrint b = true := by
  intro b hb
  unfold decInt at hb
  split at hb
  · rcases List.mem_cons.1 hb with rfl | g
    · decide
    · exact dec_print _ b g
  · exact dec_print _ b hb

/-- What the texts are made of. -/
theorem sentence_all {f : Facts} {p : UInt8 → Prop} (h : f.All p) (hp : ∀ b, isPrint b = true → p b) (n : Note) : ∀ b ∈ sentence f n, p b := by
  have lit : ∀ s : List UInt8, s.all isPrint = true → ∀ b ∈ s, p b := fun s hs b hb => hp b (List.all_eq_true.1 hs b hb)
  have app : ∀ s t : List UInt8, (∀ b ∈ s, p b) → (∀ b ∈ t, p b) → ∀ b ∈ s ++ t, p b := by
    intro s t hs ht b hb
    rcases List.mem_append.1 hb with g | g
    · exact hs b g
    · exact ht b g
  have con : ∀ d, ∀ b ∈ theCon f d, p b := fun d => app _ _ (app _ _ (lit _ (by decide)) (h.name d)) (lit _ (by decide))
  have cl : ∀ i, ∀ b ∈ clientText (f.who i), p b := by
    intro i
    unfold clientText
    refine app _ _ (app _ _ (app _ _ (app _ _ (app _ _ (lit _ (by decide)) (h.user i)) (lit _ (by decide))) (h.host i)) (lit _ (by decide))) ?_
    cases ht : (f.who i).tty with
    | none => exact fun b hb => absurd hb List.not_mem_nil
    | some t => exact app _ _ (lit _ (by decide)) (h.tty i t ht)
  have dv : ∀ i, ∀ b ∈ peerName (f.dev i), p b := by
    intro i
    have hs := h.dev i
    cases hd : f.dev i with
    | unixsock q => rw [hd] at hs; exact app _ _ (app _ _ (lit _ (by decide)) (hs q List.mem_cons_self)) (lit _ (by decide))
    | serial q o => rw [hd] at hs; exact app _ _ (app _ _ (lit _ (by decide)) (hs q List.mem_cons_self)) (lit _ (by decide))
    | telnet q o =>
      rw [hd] at hs
      exact app _ _ (app _ _ (app _ _ (app _ _ (lit _ (by decide)) (hs q List.mem_cons_self)) (lit _ (by decide))) (fun b hb => hp b (decInt_print o b hb))) (lit _ (by decide))
    | ipmi q o => rw [hd] at hs; exact app _ _ (app _ _ (lit _ (by decide)) (hs q List.mem_cons_self)) (lit _ (by decide))
    | test o => exact fun b hb => absurd hb List.not_mem_nil
    | process args =>
      rw [hd] at hs
      refine app _ _ (app _ _ (lit _ (by decide)) ?_) (lit _ (by decide))
      intro b hb
      unfold lastPart at hb
      have hb := List.mem_reverse.1 ((List.takeWhile_sublist _).subset (List.mem_reverse.1 hb))
      cases args with
      | nil => exact absurd hb List.not_mem_nil
      | cons a as => exact hs a List.mem_cons_self b hb
  have pd : ∀ i, ∀ b ∈ pidOf f i, p b := by
    intro i
    unfold pidOf
    split
    · exact app _ _ (app _ _ (lit _ (by decide)) (fun b hb => hp b (dec_print _ b hb))) (lit _ (by decide))
    · exact fun b hb => absurd hb List.not_mem_nil
  have rt : ∀ i, ∀ b ∈ runTime f i, p b := by
    intro i
    unfold runTime
    split
    · exact app _ _ (lit _ (by decide)) h.up
    · exact fun b hb => absurd hb List.not_mem_nil
  have bc : ∀ x : Bool, ∀ b ∈ (if x then bs " for B/C" else []), p b := by
    intro x; cases x
    · exact fun b hb => absurd hb List.not_mem_nil
    · exact lit _ (by decide)
  cases n with
  | stolenBy s d => exact app _ _ (app _ _ (app _ _ (app _ _ (app _ _ (app _ _ (con d) (lit _ (by decide))) (bc _)) (lit _ (by decide))) (cl s)) (lit _ (by decide))) h.short
  | joinedBy s d => exact app _ _ (app _ _ (app _ _ (app _ _ (app _ _ (app _ _ (con d) (lit _ (by decide))) (bc _)) (lit _ (by decide))) (cl s)) (lit _ (by decide))) h.short
  | stolenFrom s d => exact app _ _ (app _ _ (app _ _ (app _ _ (con d) (lit _ (by decide))) (cl s)) (lit _ (by decide))) h.short
  | joinedWith s d => exact app _ _ (app _ _ (app _ _ (app _ _ (con d) (lit _ (by decide))) (cl s)) (lit _ (by decide))) h.short
  | departed s d => exact app _ _ (app _ _ (app _ _ (app _ _ (con d) (lit _ (by decide))) (cl s)) (lit _ (by decide))) h.short
  | isDown d => exact app _ _ (app _ _ (con d) (lit _ (by decide))) (dv d)
  | connected d => exact app _ _ (app _ _ (app _ _ (con d) (lit _ (by decide))) (dv d)) (pd d)
  | disconnected d => exact app _ _ (app _ _ (app _ _ (app _ _ (con d) (lit _ (by decide))) (dv d)) (pd d)) (rt d)
  | connFailed d =>
    refine app _ _ (app _ _ (con d) (lit _ (by decide))) ?_
    unfold failReason
    split
    · exact app _ _ (lit _ (by decide)) h.err
    · exact app _ _ (lit _ (by decide)) h.err
    · exact app _ _ (app _ _ (dv d) (lit _ (by decide))) h.err
    · exact app _ _ (dv d) (lit _ (by decide))
    · exact app _ _ (dv d) (lit _ (by decide))
  | resetBusy d => exact app _ _ (app _ _ (app _ _ (app _ _ (lit _ (by decide)) (h.name d)) (lit _ (by decide))) (fun b hb => hp b (dec_print _ b hb))) (lit _ (by decide))
  | resetLong d => exact app _ _ (app _ _ (lit _ (by decide)) (h.name d)) (lit _ (by decide))
  | resetFork d => exact app _ _ (app _ _ (app _ _ (lit _ (by decide)) (h.name d)) (lit _ (by decide))) h.err
  | resetBy c d =>
    exact app _ _ (app _ _ (app _ _ (app _ _ (app _ _ (app _ _ (app _ _ (con d) (lit _ (by decide))) (h.user c)) (lit _ (by decide))) (h.host c)) (lit _ (by decide)))
      (fun b hb => hp b (dec_print _ b hb))) (lit _ (by decide))
  | quietOn => exact lit (bs "Quiet-mode enabled -- info msgs will be suppressed") (by decide)
  | quietOff => exact lit (bs "Quiet-mode disabled -- info msgs will be displayed") (by decide)
  | logOpened l => exact app _ _ (app _ _ (con l) (lit _ (by decide))) h.long
  | logStamp l => exact app _ _ (app _ _ (con l) (lit _ (by decide))) h.long

theorem print_ne0 {b : UInt8} (h : isPrint b = true) : b ≠ 0 := by rintro rfl; exact absurd h (by decide)
theorem print_nonl {b : UInt8} (h : isPrint b = true) : b ≠ 0x0D ∧ b ≠ 0x0A := by
  constructor <;> (rintro rfl; exact absurd h (by decide))

theorem Facts.All.imp {f : Facts} {p q : UInt8 → Prop} (h : f.All p) (hpq : ∀ b, p b → q b) : f.All q :=
  ⟨fun i b g => hpq b (h.name i b g), fun i s hs b g => hpq b (h.dev i s hs b g), fun i b g => hpq b (h.user i b g),
    fun i b g => hpq b (h.host i b g), fun i t ht b g => hpq b (h.tty i t ht b g), fun b g => hpq b (h.short b g), fun b g => hpq b (h.long b g),
    fun b g => hpq b (h.up b g), fun b g => hpq b (h.err b g)⟩

theorem body_nz {f : Facts} (h : f.All (· ≠ 0)) (n : Note) : (0 : UInt8) ∉ noticeBody f n := by
  rw [body_sentence]
  exact fun hm => sentence_all h (fun _ => print_ne0) n 0 hm rfl

end Conman
