import Verif.Props.HlllCmd

/-!
# Command lines that are not well-formed (C96, C98, C99)
-/

namespace Fplll

open Cli

/-- neither well-formed nor a request for help or the version -/
def BadArgs (argv : List String) : Prop :=
  (¬ ∃ ts, CmdLine ts ∧ argv = ts.flatMap Tok.args) ∧ ∀ a ∈ argv, a ∉ ["-h", "--help", "--version"]

theorem readOptions_bad {R : Type} {cv : Conv R} {argv : List String} (h : BadArgs argv) :
    readOptions cv argv (Options.init cv) = .exit1 := by
  cases hr : readOptions cv argv (Options.init cv) with
  | exit0 =>
    obtain ⟨a, h1, h2⟩ := C47_exit0 argv _ hr
    exact absurd h2 (h.2 a h1)
  | exit1 => rfl
  | ok o => exact absurd ((C47_accepts_iff argv).1 ⟨o, hr⟩) h.1

/-- **C96 (bad options).** An unknown switch, an undocumented or missing value or a second file: the exit code is 1 and nothing is
written. -/
theorem LllCmd.C96_bad_options (e : LllCmd.Env) {argv : List String} (h : BadArgs argv) (fuel : ℕ) (junk : ℕ → ℕ → ℤ) :
    LllCmd.main e argv fuel junk = .exit 1 [] := by
  unfold LllCmd.main
  rw [readOptions_bad h]

/-- **C98 (bad options)**, likewise for the other actions -/
theorem RedCmd.C98_bad_options {S D : Type} [LinearOrder D] [OrderTop D] (be : RedCmd.BEnv S D) {argv : List String} (h : BadArgs argv)
    (fuel : ℕ) (junk : ℕ → ℕ → ℤ) : RedCmd.main be argv fuel junk = .exit 1 [] := by
  unfold RedCmd.main
  rw [readOptions_bad h]

/-- **C99 (bad options)**, likewise for `-a hlll` -/
theorem HlllCmd.C99_bad_options (he : HlllCmd.HEnv) {argv : List String} (h : BadArgs argv) (fuel : ℕ) (junk : ℕ → ℕ → ℤ) :
    HlllCmd.main he argv fuel junk = .exit 1 [] := by
  unfold HlllCmd.main
  rw [readOptions_bad h]

/-- help or version, after any well-formed beginning and whatever follows -/
theorem readOptions_help {R : Type} {cv : Conv R} {ts : List Tok} (h : CmdLine ts) {a : String} (ha : a ∈ ["-h", "--help", "--version"])
    (rest : List String) : readOptions cv (ts.flatMap Tok.args ++ a :: rest) (Options.init cv) = .exit0 := by
  rw [readOptions_toks ts (a :: rest) _ h.1 (by simpa [Options.init] using h.2)]
  simp only [List.mem_cons, List.not_mem_nil, or_false] at ha
  rcases ha with rfl | rfl | rfl <;> exact readOptions_stop rfl

/-- **C96, C98, C99 (help).** Asking for help or the version is not a failure (the text written is left out of the model). -/
theorem HlllCmd.C99_help (he : HlllCmd.HEnv) {ts : List Tok} (h : CmdLine ts) {a : String} (ha : a ∈ ["-h", "--help", "--version"])
    (rest : List String) (fuel : ℕ) (junk : ℕ → ℕ → ℤ) :
    ∃ out, HlllCmd.main he (ts.flatMap Tok.args ++ a :: rest) fuel junk = .exit 0 out := by
  refine ⟨[], ?_⟩
  unfold HlllCmd.main
  rw [readOptions_help h ha]

theorem LllCmd.C96_help (e : LllCmd.Env) {ts : List Tok} (h : CmdLine ts) {a : String} (ha : a ∈ ["-h", "--help", "--version"])
    (rest : List String) (fuel : ℕ) (junk : ℕ → ℕ → ℤ) :
    ∃ out, LllCmd.main e (ts.flatMap Tok.args ++ a :: rest) fuel junk = .exit 0 out := by
  refine ⟨[], ?_⟩
  unfold LllCmd.main
  rw [readOptions_help h ha]

theorem RedCmd.C98_help {S D : Type} [LinearOrder D] [OrderTop D] (be : RedCmd.BEnv S D) {ts : List Tok} (h : CmdLine ts) {a : String}
    (ha : a ∈ ["-h", "--help", "--version"]) (rest : List String) (fuel : ℕ) (junk : ℕ → ℕ → ℤ) :
    ∃ out, RedCmd.main be (ts.flatMap Tok.args ++ a :: rest) fuel junk = .exit 0 out := by
  refine ⟨[], ?_⟩
  unfold RedCmd.main
  rw [readOptions_help h ha]

/-- a missing value -/
example : BadArgs ["-a", "hlll", "-d"] := by
  refine ⟨?_, by decide⟩
  intro h
  obtain ⟨o, ho⟩ := (C47_accepts_iff (cv := ⟨fun _ => 0, fun _ => (0 : ℤ), 0, 0, 0, 0, 0, 0⟩) _).2 h
  cases ho

end Fplll
