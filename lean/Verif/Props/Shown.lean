import Verif.Model.Shown
import Verif.Lemmas.Link

/-!
# C133: the command that is shown for a failed program is the one that was run
-/

namespace Cackle.Shown
open Cackle Link

/-! ## What users expect -/

/-- Pasting the text that is shown into a shell runs the command that was run: for every program in every sandbox. `special`
are the characters that are not printable, which ASCII characters from the space to `~` are not. -/
def C133_Claim : Prop :=
  ∀ (special : Char → Bool) (shellVars : Str → Str) (w : Sandboxing.World) (cfg : Config.Sandbox) (bin : Str)
    (sandbox : List Str) (progArgs : List Str),
    (∀ c, 32 ≤ c.toNat → c.toNat < 127 → special c = false) →
    Sandboxing.forPermSel w cfg bin = some (some sandbox) →
    bashLine [] shellVars (displayToRun special sandbox [] bin progArgs) =
      some (str! "bwrap" :: Sandboxing.command sandbox [] bin progArgs)

/-- An argument that is safe to paste: it is made of plain characters, or it has a space, a quotation mark or nothing, and
contains no character that has a meaning between double quotes, except the quotation mark and the backslash, and no
unprintable ones. -/
def Safe (special : Char → Bool) (arg : Str) : Prop :=
  (arg ≠ [] ∧ ∀ c ∈ arg, plain c) ∨
  ((' ' ∈ arg ∨ '"' ∈ arg ∨ arg = []) ∧
    ∀ c ∈ arg, c ≠ '$' ∧ c ≠ '`' ∧ c ≠ '\n' ∧ c ≠ '\t' ∧ c ≠ '\r' ∧ c ≠ '\x00' ∧ special c = false)

/-! ## The text determines the command -/

theorem digitChar_inj {a b : Nat} (ha : a < 16) (hb : b < 16) (h : Nat.digitChar a = Nat.digitChar b) : a = b := by
  have : ∀ a : Fin 16, ∀ b : Fin 16, Nat.digitChar a.val = Nat.digitChar b.val → a = b := by decide
  exact congrArg Fin.val (this ⟨a, ha⟩ ⟨b, hb⟩ h)

theorem digits_step {n : Nat} (h : 16 ≤ n) :
    Nat.toDigits 16 n = Nat.toDigits 16 (n / 16) ++ [Nat.digitChar (n % 16)] := by
  have h1 : 0 < n / 16 := by omega
  have h2 : n % 16 < 16 := by omega
  have h3 := Nat.toDigits_append_toDigits (b := 16) (by omega) h1 h2
  rw [Nat.toDigits_of_lt_base h2] at h3
  rw [h3]
  congr 1
  omega

theorem digits_ne (n : Nat) : Nat.toDigits 16 n ≠ [] := Nat.toDigits_ne_nil

theorem digits_inj (n : Nat) : ∀ m, Nat.toDigits 16 n = Nat.toDigits 16 m → n = m := by
  induction n using Nat.strongRecOn with
  | ind n ih =>
    intro m h
    by_cases hn : n < 16
    · by_cases hm : m < 16
      · rw [Nat.toDigits_of_lt_base hn, Nat.toDigits_of_lt_base hm] at h
        exact digitChar_inj hn hm (List.cons.inj h).1
      · rw [Nat.toDigits_of_lt_base hn, digits_step (by omega)] at h
        have hl := congrArg List.length h
        simp at hl
    · by_cases hm : m < 16
      · rw [Nat.toDigits_of_lt_base hm, digits_step (by omega)] at h
        have hl := congrArg List.length h
        simp at hl
      · rw [digits_step (n := n) (by omega), digits_step (n := m) (by omega)] at h
        have := List.append_inj' h rfl
        have h1 := ih (n / 16) (by omega) (m / 16) this.1
        have h2 := digitChar_inj (by omega) (by omega) (List.cons.inj this.2).1
        omega

theorem digits_mem (n : Nat) : '}' ∉ Nat.toDigits 16 n := by
  have hd : ∀ a, a < 16 → Nat.digitChar a ≠ '}' := by
    intro a ha
    have : ∀ a : Fin 16, Nat.digitChar a.val ≠ '}' := by decide
    exact this ⟨a, ha⟩
  induction n using Nat.strongRecOn with
  | ind n ih =>
    by_cases hn : n < 16
    · rw [Nat.toDigits_of_lt_base hn]
      simp only [List.mem_singleton]
      exact fun e => hd n hn e.symm
    · rw [digits_step (by omega)]
      simp only [List.mem_append, List.mem_singleton, not_or]
      exact ⟨ih _ (by omega), fun e => hd _ (by omega) e.symm⟩

theorem split_at {x : Char} {a b s t : Str} (ha : x ∉ a) (hb : x ∉ b) (h : a ++ x :: s = b ++ x :: t) :
    a = b ∧ s = t := by
  induction a generalizing b with
  | nil =>
    cases b with
    | nil => simpa using h
    | cons y b =>
      simp only [List.nil_append, List.cons_append, List.cons.injEq] at h
      exact absurd (by rw [h.1]; simp) hb
  | cons z a ih =>
    cases b with
    | nil =>
      simp only [List.nil_append, List.cons_append, List.cons.injEq] at h
      exact absurd (by rw [h.1]; simp) ha
    | cons y b =>
      simp only [List.cons_append, List.cons.injEq] at h
      obtain ⟨h1, h2⟩ := ih (fun hx => ha (by simp [hx])) (fun hx => hb (by simp [hx])) h.2
      exact ⟨by rw [h.1, h1], h2⟩

/-- How a character is written: as itself, with a letter after a backslash, or with a number. -/
inductive Form (c : Char) : Str → Prop where
  | self : c ≠ '\\' → c ≠ '"' → Form c [c]
  | letter (x : Char) : x ≠ 'u' →
      (c, x) ∈ [('\x00', '0'), ('\t', 't'), ('\r', 'r'), ('\n', 'n'), ('\\', '\\'), ('"', '"')] → Form c ['\\', x]
  | number : Form c (['\\', 'u', '{'] ++ Nat.toDigits 16 c.toNat ++ ['}'])

theorem escape_form (special : Char → Bool) (c : Char) : Form c (escapeChar special c) := by
  unfold escapeChar
  split
  · next e => subst e; exact .letter '0' (by decide) (by decide)
  split
  · next e => subst e; exact .letter 't' (by decide) (by decide)
  split
  · next e => subst e; exact .letter 'r' (by decide) (by decide)
  split
  · next e => subst e; exact .letter 'n' (by decide) (by decide)
  split
  · next e => subst e; exact .letter '\\' (by decide) (by decide)
  split
  · next e => subst e; exact .letter '"' (by decide) (by decide)
  split
  · exact .number
  · exact .self ‹_› ‹_›

theorem letter_inj {c d x : Char}
    (hc : (c, x) ∈ [('\x00', '0'), ('\t', 't'), ('\r', 'r'), ('\n', 'n'), ('\\', '\\'), ('"', '"')])
    (hd : (d, x) ∈ [('\x00', '0'), ('\t', 't'), ('\r', 'r'), ('\n', 'n'), ('\\', '\\'), ('"', '"')]) : c = d := by
  simp only [List.mem_cons, Prod.mk.injEq, List.not_mem_nil, or_false] at hc hd
  rcases hc with ⟨rfl, rfl⟩ | ⟨rfl, rfl⟩ | ⟨rfl, rfl⟩ | ⟨rfl, rfl⟩ | ⟨rfl, rfl⟩ | ⟨rfl, rfl⟩ <;>
    rcases hd with ⟨rfl, e⟩ | ⟨rfl, e⟩ | ⟨rfl, e⟩ | ⟨rfl, e⟩ | ⟨rfl, e⟩ | ⟨rfl, e⟩ <;>
      first | rfl | (exact absurd e (by decide))

theorem form_inj {c d : Char} {u v s t : Str} (hu : Form c u) (hv : Form d v) (h : u ++ s = v ++ t) :
    c = d ∧ s = t := by
  cases hu with
  | self h1 h2 =>
    cases hv with
    | self => simpa using h
    | letter x => simp at h; exact absurd h.1 h1
    | number => simp at h; exact absurd h.1 h1
  | letter x hx hm =>
    cases hv with
    | self h1 h2 => simp at h; exact absurd h.1.symm h1
    | letter y hy hm' =>
      simp at h
      rw [← h.1] at hm'
      exact ⟨letter_inj hm hm', h.2⟩
    | number => simp at h; exact absurd h.1 hx
  | number =>
    cases hv with
    | self h1 h2 => simp at h; exact absurd h.1.symm h1
    | letter y hy hm' => simp at h; exact absurd h.1.symm hy
    | number =>
      simp only [List.append_assoc, List.cons_append, List.nil_append, List.cons.injEq, true_and] at h
      obtain ⟨h1, h2⟩ := split_at (digits_mem _) (digits_mem _) h
      exact ⟨Char.toNat_inj.mp (digits_inj _ _ h1), h2⟩

theorem form_start {c : Char} {u s t : Str} (hu : Form c u) (h : u ++ s = '"' :: t) : False := by
  cases hu with
  | self h1 h2 => simp at h; exact h2 h.1
  | letter x => simp at h
  | number => simp at h

theorem escape_inj (special : Char → Bool) (a b s t : Str)
    (h : a.flatMap (escapeChar special) ++ '"' :: s = b.flatMap (escapeChar special) ++ '"' :: t) : a = b ∧ s = t := by
  induction a generalizing b with
  | nil =>
    cases b with
    | nil => simpa using h
    | cons d b =>
      rw [List.flatMap_cons, List.append_assoc] at h
      exact (form_start (escape_form special d) h.symm).elim
  | cons c a ih =>
    cases b with
    | nil =>
      rw [List.flatMap_cons, List.append_assoc] at h
      exact (form_start (escape_form special c) h).elim
    | cons d b =>
      rw [List.flatMap_cons, List.flatMap_cons, List.append_assoc, List.append_assoc] at h
      obtain ⟨h1, h2⟩ := form_inj (escape_form special c) (escape_form special d) h
      obtain ⟨h3, h4⟩ := ih b h2
      exact ⟨by rw [h1, h3], h4⟩

/-- What follows an argument. -/
def Next (s : Str) : Prop := s = [] ∨ ∃ t, s = ' ' :: t

theorem bare_inj {a b s t : Str} (ha : ' ' ∉ a) (hb : ' ' ∉ b) (hs : Next s) (ht : Next t) (h : a ++ s = b ++ t) :
    a = b ∧ s = t := by
  rcases hs with rfl | ⟨s, rfl⟩
  · rcases ht with rfl | ⟨t, rfl⟩
    · simpa using h
    · rw [List.append_nil] at h
      exact absurd (by rw [h]; simp) ha
  · rcases ht with rfl | ⟨t, rfl⟩
    · rw [List.append_nil] at h
      exact absurd (by rw [← h]; simp) hb
    · obtain ⟨h1, h2⟩ := split_at ha hb h
      exact ⟨h1, by rw [h2]⟩

theorem showArg_inj (special : Char → Bool) {a b s t : Str} (hs : Next s) (ht : Next t)
    (h : showArg special a ++ s = showArg special b ++ t) : a = b ∧ s = t := by
  have bare : ∀ {a s x : Str}, ¬ (' ' ∈ a ∨ '"' ∈ a ∨ a = []) → a ++ s = '"' :: x → False := by
    intro a s x ha h
    cases a with
    | nil => exact ha (by simp)
    | cons c a =>
      simp at h
      exact ha (by rw [h.1]; simp)
  unfold showArg at h
  split at h
  · split at h
    · simp only [debug, List.cons_append, List.cons.injEq, List.append_assoc, List.nil_append, true_and] at h
      exact escape_inj special a b s t h
    · next hb => exact (bare hb h.symm).elim
  · next ha =>
    split at h
    · exact (bare ha h).elim
    · next hb =>
      simp only [not_or] at ha hb
      exact bare_inj ha.1 hb.1 hs ht h

theorem next_args (special : Char → Bool) (args : List Str) :
    Next (args.flatMap (fun arg => ' ' :: showArg special arg)) := by
  cases args with
  | nil => exact .inl rfl
  | cons a args => exact .inr ⟨_, rfl⟩

theorem args_inj (special : Char → Bool) (as bs : List Str)
    (h : as.flatMap (fun arg => ' ' :: showArg special arg) = bs.flatMap (fun arg => ' ' :: showArg special arg)) :
    as = bs := by
  induction as generalizing bs with
  | nil =>
    cases bs with
    | nil => rfl
    | cons b bs => simp at h
  | cons a as ih =>
    cases bs with
    | nil => simp at h
    | cons b bs =>
      simp only [List.flatMap_cons, List.cons_append, List.cons.injEq, true_and] at h
      obtain ⟨h1, h2⟩ := showArg_inj special (next_args special as) (next_args special bs) h
      rw [h1, ih bs h2]

/-- The text determines the arguments: different commands are shown differently, whatever they contain. -/
theorem C133_distinct (special : Char → Bool) (program : Str) (as bs : List Str)
    (h : showCommand special program as = showCommand special program bs) : as = bs :=
  args_inj special as bs (List.append_cancel_left h)

example : showCommand (fun _ => false) (str! "bwrap") [str! "a b", [], str! "c"] = str! "bwrap \"a b\" \"\" c" := by
  decide

/-! ## Pasting it -/

theorem bash_escaped {special : Char → Bool} {vars : Str → Str} {p : Str}
    (h : ∀ c ∈ p, c ≠ '$' ∧ c ≠ '`' ∧ c ≠ '\n' ∧ c ≠ '\t' ∧ c ≠ '\r' ∧ c ≠ '\x00' ∧ special c = false) (n : Nat)
    (w s : Str) : bashWords [] vars (n + p.length) true (some w) (p.flatMap (escapeChar special) ++ s) =
      bashWords [] vars n true (some (w ++ p)) s := by
  induction p generalizing w with
  | nil => simp
  | cons c p ih =>
    obtain ⟨h1, h2, h3, h4, h5, h6, h7⟩ := h c (by simp)
    have ih' := fun w => ih (fun d hd => h d (by simp [hd])) w
    rw [List.length_cons, ← Nat.add_assoc, List.flatMap_cons, List.append_assoc]
    by_cases e1 : c = '\\'
    · subst e1
      have : escapeChar special '\\' = ['\\', '\\'] := by simp [escapeChar]
      rw [this, List.cons_append, bashWords]
      simp only [if_true, List.cons_append, List.nil_append, List.head?_cons]
      rw [if_neg (by decide), if_neg (by decide), if_pos (by simp)]
      simp only [Option.map_some, List.take_succ_cons, List.take_zero, List.drop_succ_cons, List.drop_zero]
      rw [ih']
      simp
    · by_cases e2 : c = '"'
      · subst e2
        have : escapeChar special '"' = ['\\', '"'] := by simp [escapeChar]
        rw [this, List.cons_append, bashWords]
        simp only [if_true, List.cons_append, List.nil_append, List.head?_cons]
        rw [if_neg (by decide), if_neg (by decide), if_pos (by simp)]
        simp only [Option.map_some, List.take_succ_cons, List.take_zero, List.drop_succ_cons, List.drop_zero]
        rw [ih']
        simp
      · have : escapeChar special c = [c] := by simp [escapeChar, h3, h4, h5, h6, h7, e1, e2]
        rw [this, List.singleton_append, bashWords]
        simp only [if_true]
        rw [if_neg e2, if_neg h1, if_neg e1, if_neg h2]
        simp only [Option.map_some]
        rw [ih']
        simp

/-- One safe argument is read back. -/
theorem bash_arg {special : Char → Bool} {vars : Str → Str} {arg : Str} (h : Safe special arg) (s : Str) :
    ∀ n, ∃ k, bashWords [] vars (n + k) false none (showArg special arg ++ s) =
      bashWords [] vars n false (some arg) s ∧ k ≤ (showArg special arg).length := by
  intro n
  rcases h with ⟨hne, hp⟩ | ⟨hq, hp⟩
  · have hno : ¬ (' ' ∈ arg ∨ '"' ∈ arg ∨ arg = []) := by
      rintro (h1 | h1 | h1)
      · have := hp _ h1; revert this; decide
      · have := hp _ h1; revert this; decide
      · exact hne h1
    refine ⟨arg.length, ?_, ?_⟩
    · simp only [showArg, if_neg hno]
      rw [bash_plain hp n none s hne]
      simp
    · simp [showArg, if_neg hno]
  · have hlen : arg.length ≤ (arg.flatMap (escapeChar special)).length := by
      have hone : ∀ c, 1 ≤ (escapeChar special c).length := by
        intro c
        have hf := escape_form special c
        generalize escapeChar special c = u at hf
        cases hf <;> simp
      clear hq hp
      induction arg with
      | nil => simp
      | cons c arg ih =>
        have := hone c
        rw [List.flatMap_cons, List.length_cons, List.length_append]
        omega
    refine ⟨arg.length + 2, ?_, ?_⟩
    · simp only [showArg, if_pos hq, debug, List.cons_append, List.append_assoc, List.nil_append]
      have e : n + (arg.length + 2) = (n + 1 + arg.length) + 1 := by omega
      rw [e, bashWords]
      simp only [Bool.false_eq_true, if_false, Option.getD_none]
      rw [if_neg (by decide), if_pos trivial, bash_escaped hp, bashWords]
      simp
    · simp only [showArg, if_pos hq, debug, List.length_cons, List.length_append, List.length_nil]
      omega

theorem bash_all {special : Char → Bool} {vars : Str → Str} (args : List Str) (h : ∀ a ∈ args, Safe special a) :
    ∀ w : Option Str, ∃ n, n ≤ (args.flatMap (fun arg => ' ' :: showArg special arg)).length + 1 ∧
      bashWords [] vars n false w (args.flatMap (fun arg => ' ' :: showArg special arg)) = some (w.toList ++ args) := by
  induction args with
  | nil => intro w; exact ⟨1, by simp, by simp [bashWords]⟩
  | cons a args ih =>
    intro w
    obtain ⟨n, hn, hb⟩ := ih (fun x hx => h x (by simp [hx])) (some a)
    obtain ⟨k, hk, hkl⟩ := bash_arg (vars := vars) (h a (by simp))
      (args.flatMap (fun arg => ' ' :: showArg special arg)) n
    refine ⟨n + k + 1, ?_, ?_⟩
    · simp only [List.flatMap_cons, List.cons_append, List.length_cons, List.length_append]
      omega
    · rw [List.flatMap_cons, List.cons_append, bash_space, hk, hb]
      simp

/-- C133 for commands without characters that the shell treats specially: pasting the text that is shown runs exactly this
command. -/
theorem C133_paste_partial (special : Char → Bool) (shellVars : Str → Str) (program : Str) (args : List Str)
    (hp : program ≠ [] ∧ ∀ c ∈ program, plain c) (h : ∀ a ∈ args, Safe special a) :
    bashLine [] shellVars (showCommand special program args) = some (program :: args) := by
  obtain ⟨n, hn, hb⟩ := bash_all (vars := shellVars) args h (some program)
  have := bash_plain (xs := []) (vars := shellVars) hp.2 n none
    (args.flatMap (fun arg => ' ' :: showArg special arg)) hp.1
  rw [show (Option.getD none [] ++ program : Str) = program from rfl, hb] at this
  exact bash_fuel this (by simp only [showCommand, List.length_append]; omega)

/-- The arguments that cackle adds itself are safe; what remains are directories, variables and the program. -/
theorem C133_own (special : Char → Bool) (sandbox : List Str) (prog : Str) (progArgs : List Str)
    (h : ∀ a ∈ sandbox, Safe special a) (hp : Safe special prog) (ha : ∀ a ∈ progArgs, Safe special a) :
    ∀ a ∈ Sandboxing.command sandbox [] prog progArgs, Safe special a := by
  intro a hm
  have own : ∀ x : Str, x ≠ [] → (x.all (fun c => decide (plain c))) = true → Safe special x := by
    intro x h1 h2
    exact .inl ⟨h1, fun c hc => of_decide_eq_true (List.all_eq_true.mp h2 c hc)⟩
  simp only [Sandboxing.command, List.mem_append, List.mem_cons, List.flatMap_nil, List.not_mem_nil, or_false] at hm
  rcases hm with (((rfl | rfl | rfl | rfl | rfl | rfl | rfl | rfl | rfl) | hm) | (rfl | rfl | rfl | rfl)) | rfl | rfl | hm
  all_goals first
    | exact h _ hm
    | exact hp
    | exact ha _ hm
    | exact own _ (by decide) (by decide)

/-- A build script whose package has the given description. -/
def describedWorld (description : Str) : Sandboxing.World where
  env := [(str! "HOME", str! "/h"), (str! "CARGO_MANIFEST_DIR", str! "/m"), (str! "CARGO_PKG_DESCRIPTION", description)]
  pathExists := fun _ => true
  isDir := fun _ => true
  mkdir := fun _ => true

def bubblewrap : Config.Sandbox := { kind := some .bubblewrap }

/-- What is shown for it. -/
def shownFor (description : Str) : Option Str :=
  match Sandboxing.forPermSel (describedWorld description) bubblewrap (str! "/t/build") with
  | some (some sandbox) => some (displayToRun (fun _ => false) sandbox [] (str! "/t/build") [])
  | _ => none

/-- With an ordinary description, the text can be pasted. -/
example : ((shownFor (str! "a \"b\" c")).bind (bashLine [] (fun _ => []))).isSome = true := by decide +kernel

/-- **C133 (the sandbox).** Pasting the text that is shown for a sandbox runs Bubblewrap with exactly the arguments that cackle
itself passes to it, if the directories, the program and its arguments are safe. -/
theorem C133_bwrap_partial (special : Char → Bool) (shellVars : Str → Str) (sandbox : List Str) (prog : Str) (progArgs : List Str)
    (h : ∀ a ∈ sandbox, Safe special a) (hp : Safe special prog) (ha : ∀ a ∈ progArgs, Safe special a) :
    bashLine [] shellVars (displayToRun special sandbox [] prog progArgs) =
      some (str! "bwrap" :: Sandboxing.command sandbox [] prog progArgs) :=
  C133_paste_partial special shellVars (str! "bwrap") _ (by decide) (C133_own special sandbox prog progArgs h hp ha)

/-- The description of a package is part of the text, and whoever writes it can make the shell do something else when the
text is pasted: run a command (between backquotes) … -/
theorem C133_runs_command :
    (shownFor (str! "x `touch /tmp/x`")).isSome = true ∧
    (shownFor (str! "x `touch /tmp/x`")).bind (bashLine [] (fun _ => [])) = none := by decide +kernel

/-- … or replace a variable. -/
theorem C133_refuted : ¬ C133_Claim := by
  intro h
  have := h (fun _ => false) (fun _ => str! "v") (describedWorld (str! "x $y")) bubblewrap (str! "/t/build") _ []
    (fun _ _ _ => rfl) rfl
  revert this
  decide +kernel

end Cackle.Shown
