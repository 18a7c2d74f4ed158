import Verif.Model.Cli
import Verif.Props.Wrapper
import Verif.Props.SVP
import Verif.Spec.GramDet

/-!
# C47 (command line), C54 (`-a svp` end to end), C55 (output formats)
-/

namespace Fplll
namespace Cli

open Wrapper Spec Gen

variable {R : Type} {cv : Conv R}

/-! ## C47: specification -/

/-- An argument list, as the documentation describes it: switches without value, switches with value, input file. -/
inductive Tok
  | flag (name : String)
  | val (name value : String)
  | file (name : String)

/-- the arguments written for a token -/
def Tok.args : Tok → List String
  | .flag a => [a]
  | .val a v => [a, v]
  | .file a => [a]

/-- the switches without value -/
def flagNames : List String := ["-bkzboundedlll", "-bkzautoabort", "-nolll", "-v", "-y"]

/-- the switches with a value -/
def valNames : List String :=
  ["-a", "-b", "-prustart", "-pruend", "-pruprenodes", "-pruminprob", "-bkzmaxloops", "-bkzmaxtime", "-bkzdumpgso", "-c",
   "-r", "-bkzghbound", "-d", "-delta", "-e", "-eta", "-t", "-theta", "-f", "-s", "-l", "-m", "-of", "-p", "-z"]

/-- documented values of the switches with a fixed list of values -/
def allowed (name value : String) : Prop :=
  (name = "-a" → value ∈ ["lll", "bkz", "hkz", "svp", "sdb", "sld", "cvp", "hlll", "pru"]) ∧
  (name = "-f" → value ∈ ["mpfr", "dd", "qd", "dpe", "double", "longdouble"]) ∧
  (name = "-m" → value ∈ ["wrapper", "fast", "heuristic", "proved"]) ∧
  (name = "-z" → value ∈ ["mpz", "int", "long", "double"])

/-- a well-formed token -/
def Tok.ok : Tok → Prop
  | .flag a => a ∈ flagNames
  | .val a v => a ∈ valNames ∧ allowed a v
  | .file a => a.toList.head? ≠ some '-'

def Tok.isFile : Tok → Bool
  | .file _ => true
  | _ => false

def Tok.isFlag (name : String) : Tok → Bool
  | .flag a => decide (a = name)
  | _ => false

/-- a well-formed command line: at most one input file -/
def CmdLine (ts : List Tok) : Prop := (∀ t ∈ ts, t.ok) ∧ (ts.filter Tok.isFile).length ≤ 1

/-- the value given to a switch (under one of its names) by a token -/
def Tok.valueOf (names : List String) : Tok → Option String
  | .val a v => if a ∈ names then some v else none
  | _ => none

/-- the last value given to a switch -/
def lastVal (names : List String) (ts : List Tok) : Option String := (ts.filterMap (Tok.valueOf names)).getLast?

/-- is a switch without value present? -/
def hasFlag (name : String) (ts : List Tok) : Prop := ∃ t ∈ ts, t.isFlag name = true

/-- is a switch present with one of these values? -/
def hasVal (names : List String) (p : String → Prop) (ts : List Tok) : Prop :=
  ∃ t ∈ ts, ∃ a v, t = .val a v ∧ a ∈ names ∧ p v

/-! Documented meaning of the values. -/

def actionOf (v : String) : Option Action :=
  [("lll", Action.lll), ("bkz", .bkz), ("hkz", .hkz), ("svp", .svp), ("sdb", .bkz), ("sld", .bkz), ("cvp", .cvp),
   ("hlll", .hlll), ("pru", .pru)].lookup v

def floatOf (v : String) : Option FT :=
  [("mpfr", FT.mpfr), ("dd", .dd), ("qd", .qd), ("dpe", .dpe), ("double", .double), ("longdouble", .longDouble)].lookup v

def methodOf (v : String) : Option Meth :=
  [("wrapper", Meth.wrapper), ("fast", .fast), ("heuristic", .heuristic), ("proved", .proved)].lookup v

def intOf (v : String) : Option ZT :=
  [("mpz", ZT.mpz), ("int", .long), ("long", .long), ("double", .double)].lookup v

/-- the BKZ flag that belongs to a token -/
def Tok.bkzFlag : Tok → ℕ
  | .flag a => if a = "-bkzboundedlll" then BKZ_BOUNDED_LLL else if a = "-bkzautoabort" then BKZ_AUTO_ABORT else 0
  | .val a v =>
    if a = "-bkzmaxloops" then BKZ_MAX_LOOPS else if a = "-bkzmaxtime" then BKZ_MAX_TIME
    else if a = "-bkzdumpgso" then BKZ_DUMP_GSO else if a = "-bkzghbound" then BKZ_GH_BND
    else if a = "-a" ∧ v = "sdb" then BKZ_SD_VARIANT else if a = "-a" ∧ v = "sld" then BKZ_SLD_RED else 0
  | .file _ => 0

/-- the documented effect of one token, field by field -/
def specStep (cv : Conv R) (t : Tok) (o : Options R) : Options R where
  action := ((t.valueOf ["-a"]).bind actionOf).getD o.action
  method := ((t.valueOf ["-m"]).bind methodOf).getD o.method
  intType := ((t.valueOf ["-z"]).bind intOf).getD o.intType
  floatType := ((t.valueOf ["-f"]).map floatOf).getD o.floatType
  delta := ((t.valueOf ["-d", "-delta"]).map cv.atof).getD o.delta
  eta := ((t.valueOf ["-e", "-eta"]).map cv.atof).getD o.eta
  precision := ((t.valueOf ["-p"]).map cv.atoi).getD o.precision
  earlyRed := o.earlyRed || t.isFlag "-y"
  siegel := ((t.valueOf ["-l"]).map fun v => decide (cv.atoi v = 0)).getD o.siegel
  noLll := o.noLll || t.isFlag "-nolll"
  blockSize := ((t.valueOf ["-b"]).map cv.atoi).getD o.blockSize
  bkzFlags := o.bkzFlags ||| t.bkzFlag
  bkzMaxLoops := ((t.valueOf ["-bkzmaxloops"]).map cv.atoi).getD o.bkzMaxLoops
  pruneStart := ((t.valueOf ["-prustart"]).map fun v => some (cv.atoi v)).getD o.pruneStart
  pruneEnd := ((t.valueOf ["-pruend"]).map fun v => some (cv.atoi v)).getD o.pruneEnd
  prunePreNodes := ((t.valueOf ["-pruprenodes"]).map fun v => some (cv.atof v)).getD o.prunePreNodes
  pruneMinProb := ((t.valueOf ["-pruminprob"]).map fun v => some (cv.atof v)).getD o.pruneMinProb
  bkzMaxTime := ((t.valueOf ["-bkzmaxtime"]).map cv.atof).getD o.bkzMaxTime
  dumpFile := (t.valueOf ["-bkzdumpgso"]).getD o.dumpFile
  ghFactor := ((t.valueOf ["-bkzghbound"]).map cv.atof).getD o.ghFactor
  strategyFile := (t.valueOf ["-s"]).getD o.strategyFile
  verbose := o.verbose || t.isFlag "-v"
  inputFile := match t with
    | .file a => some a
    | _ => o.inputFile
  outputFormat := ((t.valueOf ["-of"]).map some).getD o.outputFormat
  theta := ((t.valueOf ["-t", "-theta"]).map cv.atof).getD o.theta
  c := ((t.valueOf ["-c", "-r"]).map cv.atof).getD o.c

/-! ## C47: the parser -/

theorem lookup_mem {α : Type} {l : List (String × α)} {a : String} {k : α} (h : l.lookup a = some k) : (a, k) ∈ l := by
  induction l with
  | nil => cases h
  | cons e l ih =>
    rw [List.lookup_cons] at h
    by_cases he : a = e.1
    · subst he
      simp at h
      subst h
      exact List.mem_cons_self
    · have : (a == e.1) = false := by simpa using he
      rw [this] at h
      exact List.mem_cons_of_mem _ (ih h)

theorem kind_val {a : String} (h : a ∈ valNames) : ∃ f, kind cv a = .val f := by
  simp only [valNames, List.mem_cons, List.not_mem_nil, or_false] at h
  rcases h with rfl | rfl | rfl | rfl | rfl | rfl | rfl | rfl | rfl | rfl | rfl | rfl | rfl | rfl | rfl | rfl | rfl |
    rfl | rfl | rfl | rfl | rfl | rfl | rfl | rfl <;> exact ⟨_, rfl⟩

theorem kind_flag {a : String} (h : a ∈ flagNames) : ∃ f, kind cv a = .flag f := by
  simp only [flagNames, List.mem_cons, List.not_mem_nil, or_false] at h
  rcases h with rfl | rfl | rfl | rfl | rfl <;> exact ⟨_, rfl⟩

/-- the names of the table -/
theorem table_names : (table cv).map (·.1) = ["-a", "-b", "-prustart", "-pruend", "-pruprenodes", "-pruminprob",
    "-bkzboundedlll", "-bkzmaxloops", "-bkzmaxtime", "-bkzautoabort", "-bkzdumpgso", "-c", "-r", "-bkzghbound", "-d",
    "-delta", "-e", "-eta", "-t", "-theta", "-f", "-s", "-l", "-m", "-nolll", "-of", "-p", "-v", "-y", "-z", "-h",
    "--help", "--version"] := rfl

theorem lookup_none {a : String} (h : a.toList.head? ≠ some '-') : (table cv).lookup a = none := by
  cases hl : (table cv).lookup a with
  | none => rfl
  | some k =>
    exfalso
    have hm : a ∈ (table cv).map (·.1) := List.mem_map.2 ⟨_, lookup_mem hl, rfl⟩
    rw [table_names] at hm
    have hall : ∀ s ∈ ["-a", "-b", "-prustart", "-pruend", "-pruprenodes", "-pruminprob",
      "-bkzboundedlll", "-bkzmaxloops", "-bkzmaxtime", "-bkzautoabort", "-bkzdumpgso", "-c", "-r", "-bkzghbound", "-d",
      "-delta", "-e", "-eta", "-t", "-theta", "-f", "-s", "-l", "-m", "-nolll", "-of", "-p", "-v", "-y", "-z", "-h",
      "--help", "--version"], s.toList.head? = some '-' := by decide +kernel
    exact h (hall a hm)

theorem kind_file {a : String} (h : a.toList.head? ≠ some '-') : kind cv a = .file := by
  unfold kind
  rw [lookup_none h]
  exact if_neg h

theorem kind_inv (a : String) : (a ∈ valNames ∧ ∃ f, kind cv a = .val f) ∨ (a ∈ flagNames ∧ ∃ f, kind cv a = .flag f) ∨
    (a ∈ ["-h", "--help", "--version"] ∧ kind cv a = .stop .exit0) ∨ kind cv a = .stop .exit1 ∨
    (a.toList.head? ≠ some '-' ∧ kind cv a = .file) := by
  cases hl : (table cv).lookup a with
  | none =>
    by_cases hh : a.toList.head? = some '-'
    · refine Or.inr (Or.inr (Or.inr (Or.inl ?_)))
      unfold kind
      rw [hl]
      exact if_pos hh
    · exact Or.inr (Or.inr (Or.inr (Or.inr ⟨hh, kind_file hh⟩)))
  | some k =>
    have hm : a ∈ (table cv).map (·.1) := List.mem_map.2 ⟨_, lookup_mem hl, rfl⟩
    rw [table_names] at hm
    have hall : ∀ s ∈ ["-a", "-b", "-prustart", "-pruend", "-pruprenodes", "-pruminprob",
      "-bkzboundedlll", "-bkzmaxloops", "-bkzmaxtime", "-bkzautoabort", "-bkzdumpgso", "-c", "-r", "-bkzghbound", "-d",
      "-delta", "-e", "-eta", "-t", "-theta", "-f", "-s", "-l", "-m", "-nolll", "-of", "-p", "-v", "-y", "-z", "-h",
      "--help", "--version"], s ∈ valNames ∨ s ∈ flagNames ∨ s ∈ ["-h", "--help", "--version"] := by decide +kernel
    rcases hall a hm with h | h | h
    · exact Or.inl ⟨h, kind_val h⟩
    · exact Or.inr (Or.inl ⟨h, kind_flag h⟩)
    · refine Or.inr (Or.inr (Or.inl ⟨h, ?_⟩))
      simp only [List.mem_cons, List.not_mem_nil, or_false] at h
      rcases h with rfl | rfl | rfl <;> rfl

theorem readOptions_val {a v : String} {rest : List String} {o : Options R} {f} (h : kind cv a = .val f) :
    readOptions cv (a :: v :: rest) o = match f v o with
      | .ok o' => readOptions cv rest o'
      | r => r := by
  rw [readOptions]
  simp only [h]
  cases f v o <;> rfl

theorem readOptions_flag {a : String} {rest : List String} {o : Options R} {f} (h : kind cv a = .flag f) :
    readOptions cv (a :: rest) o = readOptions cv rest (f o) := by
  rw [readOptions]
  simp only [h]

theorem readOptions_file {a : String} {rest : List String} {o : Options R} (h : kind cv a = .file) :
    readOptions cv (a :: rest) o =
      if o.inputFile.isSome then .exit1 else readOptions cv rest { o with inputFile := some a } := by
  rw [readOptions]
  simp only [h]

theorem readOptions_stop {a : String} {rest : List String} {o : Options R} {r} (h : kind cv a = .stop r) :
    readOptions cv (a :: rest) o = r := by
  rw [readOptions]
  simp only [h]

theorem val_effect {a v : String} (ha : a ∈ valNames) (hv : allowed a v) (o : Options R) :
    ∃ f, kind cv a = .val f ∧ f v o = .ok (specStep cv (.val a v) o) := by
  simp only [valNames, List.mem_cons, List.not_mem_nil, or_false] at ha
  obtain ⟨h1, h2, h3, h4⟩ := hv
  rcases ha with rfl | ha
  · refine ⟨setAction, rfl, ?_⟩
    have := h1 rfl
    simp only [List.mem_cons, List.not_mem_nil, or_false] at this
    rcases this with rfl | rfl | rfl | rfl | rfl | rfl | rfl | rfl | rfl <;>
      simp [setAction, specStep, Tok.valueOf, Tok.bkzFlag, Tok.isFlag, actionOf, List.lookup]
  rcases ha with rfl | rfl | rfl | rfl | rfl | rfl | rfl | rfl | rfl | rfl | rfl | rfl | rfl | rfl | rfl | rfl |
    rfl | rfl | rfl | rfl | rfl | rfl | rfl | rfl
  case inr.inr.inr.inr.inr.inr.inr.inr.inr.inr.inr.inr.inr.inr.inr.inr.inr.inr.inl =>
    refine ⟨setFloat, rfl, ?_⟩
    have := h2 rfl
    simp only [List.mem_cons, List.not_mem_nil, or_false] at this
    rcases this with rfl | rfl | rfl | rfl | rfl | rfl <;>
      simp [setFloat, specStep, Tok.valueOf, Tok.bkzFlag, Tok.isFlag, floatOf, List.lookup]
  case inr.inr.inr.inr.inr.inr.inr.inr.inr.inr.inr.inr.inr.inr.inr.inr.inr.inr.inr.inr.inr.inl =>
    refine ⟨setMethod, rfl, ?_⟩
    have := h3 rfl
    simp only [List.mem_cons, List.not_mem_nil, or_false] at this
    rcases this with rfl | rfl | rfl | rfl <;>
      simp [setMethod, specStep, Tok.valueOf, Tok.bkzFlag, Tok.isFlag, methodOf, List.lookup]
  case inr.inr.inr.inr.inr.inr.inr.inr.inr.inr.inr.inr.inr.inr.inr.inr.inr.inr.inr.inr.inr.inr.inr =>
    refine ⟨setInt, rfl, ?_⟩
    have := h4 rfl
    simp only [List.mem_cons, List.not_mem_nil, or_false] at this
    rcases this with rfl | rfl | rfl | rfl <;>
      simp [setInt, specStep, Tok.valueOf, Tok.bkzFlag, Tok.isFlag, intOf, List.lookup]
  all_goals
    refine ⟨_, rfl, ?_⟩
    simp [specStep, Tok.valueOf, Tok.bkzFlag, Tok.isFlag]

theorem flag_effect {a : String} (ha : a ∈ flagNames) (o : Options R) :
    ∃ f, kind cv a = .flag f ∧ f o = specStep cv (.flag a) o := by
  simp only [flagNames, List.mem_cons, List.not_mem_nil, or_false] at ha
  rcases ha with rfl | rfl | rfl | rfl | rfl <;>
  · refine ⟨_, rfl, ?_⟩
    simp [specStep, Tok.valueOf, Tok.bkzFlag, Tok.isFlag]

theorem val_reject {a v : String} (hv : ¬ allowed a v) {f} (hk : kind cv a = .val f) (o : Options R) :
    f v o = .exit1 := by
  unfold allowed at hv
  rw [not_and_or, not_and_or, not_and_or, Classical.not_imp, Classical.not_imp, Classical.not_imp, Classical.not_imp] at hv
  rcases hv with ⟨rfl, h⟩ | ⟨rfl, h⟩ | ⟨rfl, h⟩ | ⟨rfl, h⟩
  · obtain rfl : setAction = f := Kind.val.inj hk
    simp only [List.mem_cons, List.not_mem_nil, or_false, not_or] at h
    simp [setAction, h]
  · obtain rfl : setFloat = f := Kind.val.inj hk
    simp only [List.mem_cons, List.not_mem_nil, or_false, not_or] at h
    simp [setFloat, h]
  · obtain rfl : setMethod = f := Kind.val.inj hk
    simp only [List.mem_cons, List.not_mem_nil, or_false, not_or] at h
    simp [setMethod, h]
  · obtain rfl : setInt = f := Kind.val.inj hk
    simp only [List.mem_cons, List.not_mem_nil, or_false, not_or] at h
    simp [setInt, h]

/-- one token -/
theorem readOptions_tok {t : Tok} (ht : t.ok) (rest : List String) (o : Options R) :
    readOptions cv (t.args ++ rest) o =
      if t.isFile = true ∧ o.inputFile.isSome = true then .exit1 else readOptions cv rest (specStep cv t o) := by
  cases t with
  | flag a =>
    obtain ⟨f, hk, hf⟩ := flag_effect (cv := cv) ht o
    rw [if_neg (fun h => Bool.false_ne_true h.1)]
    exact (readOptions_flag hk).trans (by rw [hf]; rfl)
  | val a v =>
    obtain ⟨f, hk, hf⟩ := val_effect (cv := cv) ht.1 ht.2 o
    rw [if_neg (fun h => Bool.false_ne_true h.1)]
    exact (readOptions_val hk).trans (by rw [hf]; rfl)
  | file a =>
    refine (readOptions_file (kind_file ht)).trans ?_
    have : ({ o with inputFile := some a } : Options R) = specStep cv (.file a) o := by
      simp [specStep, Tok.valueOf, Tok.bkzFlag, Tok.isFlag]
    rw [this]
    by_cases h : o.inputFile.isSome = true
    · rw [if_pos h, if_pos ⟨rfl, h⟩]
    · rw [if_neg h, if_neg fun hh => h hh.2]
      rfl

theorem specStep_file (t : Tok) (o : Options R) :
    (specStep cv t o).inputFile.isSome = (o.inputFile.isSome || t.isFile) := by
  cases t <;> simp [specStep, Tok.isFile]

theorem readOptions_toks : ∀ (ts : List Tok) (rest : List String) (o : Options R), (∀ t ∈ ts, t.ok) →
    (ts.filter Tok.isFile).length + (if o.inputFile.isSome then 1 else 0) ≤ 1 →
    readOptions cv (ts.flatMap Tok.args ++ rest) o = readOptions cv rest (ts.foldl (fun o t => specStep cv t o) o)
  | [], rest, o, _, _ => rfl
  | t :: ts, rest, o, hok, hf => by
    rw [List.flatMap_cons, List.append_assoc, readOptions_tok (hok t List.mem_cons_self), List.foldl_cons]
    by_cases ht : t.isFile = true
    · rw [List.filter_cons_of_pos ht, List.length_cons] at hf
      have ho : ¬ o.inputFile.isSome = true := by
        intro h
        rw [if_pos h] at hf
        omega
      rw [if_neg fun h => ho h.2]
      refine readOptions_toks ts rest _ (fun s hs => hok s (List.mem_cons_of_mem _ hs)) ?_
      rw [if_neg ho] at hf
      rw [specStep_file, ht, Bool.or_true, if_pos rfl]
      omega
    · rw [List.filter_cons_of_neg ht] at hf
      rw [if_neg fun h => ht h.1]
      refine readOptions_toks ts rest _ (fun s hs => hok s (List.mem_cons_of_mem _ hs)) ?_
      rw [specStep_file, Bool.eq_false_iff.2 ht, Bool.or_false]
      exact hf

/-- **C47, well-formed command lines**: the parser accepts them, and its result is the fold of the documented effects. -/
theorem C47_accepts {ts : List Tok} (h : CmdLine ts) :
    readOptions cv (ts.flatMap Tok.args) (Options.init cv) =
      .ok (ts.foldl (fun o t => specStep cv t o) (Options.init cv)) := by
  have := readOptions_toks (cv := cv) ts [] (Options.init cv) h.1 (by simpa [Options.init] using h.2)
  rw [List.append_nil] at this
  rw [this]
  rfl

theorem readOptions_ok : ∀ (n : ℕ) (args : List String) (o o' : Options R), args.length ≤ n →
    readOptions cv args o = .ok o' →
    ∃ ts : List Tok, (∀ t ∈ ts, t.ok) ∧
      (ts.filter Tok.isFile).length + (if o.inputFile.isSome then 1 else 0) ≤ 1 ∧ args = ts.flatMap Tok.args
  | 0, [], o, o', _, _ => ⟨[], fun t ht => (by cases ht), by split_ifs <;> simp, rfl⟩
  | 0, _ :: _, o, o', hl, _ => by simp at hl
  | n + 1, [], o, o', _, _ => ⟨[], fun t ht => (by cases ht), by split_ifs <;> simp, rfl⟩
  | n + 1, a :: rest, o, o', hl, h => by
    rw [List.length_cons] at hl
    rcases kind_inv (cv := cv) a with ⟨ha, f, hk⟩ | ⟨ha, f, hk⟩ | ⟨ha, hk⟩ | hk | ⟨ha, hk⟩
    · cases rest with
      | nil =>
        rw [readOptions] at h
        simp only [hk] at h
        cases h
      | cons v rest =>
        rw [readOptions_val hk] at h
        by_cases hv : allowed a v
        · obtain ⟨f', hk', hf'⟩ := val_effect (cv := cv) ha hv o
          rw [hk] at hk'
          cases hk'
          rw [hf'] at h
          rw [List.length_cons] at hl
          obtain ⟨ts, h1, h2, h3⟩ := readOptions_ok n rest _ o' (by omega) h
          refine ⟨.val a v :: ts, ?_, ?_, ?_⟩
          · intro t ht
            rcases List.mem_cons.1 ht with rfl | ht
            · exact ⟨ha, hv⟩
            · exact h1 t ht
          · rw [specStep_file] at h2
            simpa [Tok.isFile] using h2
          · rw [List.flatMap_cons, h3]
            rfl
        · rw [val_reject hv hk] at h
          cases h
    · rw [readOptions_flag hk] at h
      obtain ⟨f', hk', hf'⟩ := flag_effect (cv := cv) ha o
      rw [hk] at hk'
      cases hk'
      rw [hf'] at h
      obtain ⟨ts, h1, h2, h3⟩ := readOptions_ok n rest _ o' (by omega) h
      refine ⟨.flag a :: ts, ?_, ?_, ?_⟩
      · intro t ht
        rcases List.mem_cons.1 ht with rfl | ht
        · exact ha
        · exact h1 t ht
      · rw [specStep_file] at h2
        simpa [Tok.isFile] using h2
      · rw [List.flatMap_cons, h3]
        rfl
    · rw [readOptions_stop hk] at h
      cases h
    · rw [readOptions_stop hk] at h
      cases h
    · rw [readOptions_file hk] at h
      by_cases hi : o.inputFile.isSome = true
      · rw [if_pos hi] at h
        cases h
      · rw [if_neg hi] at h
        obtain ⟨ts, h1, h2, h3⟩ := readOptions_ok n rest _ o' (by omega) h
        refine ⟨.file a :: ts, ?_, ?_, ?_⟩
        · intro t ht
          rcases List.mem_cons.1 ht with rfl | ht
          · exact ha
          · exact h1 t ht
        · rw [List.filter_cons_of_pos rfl, List.length_cons, if_neg hi]
          simpa using h2
        · rw [List.flatMap_cons, h3]
          rfl

/-- **C47, exactly the well-formed command lines are accepted**: in particular an unknown switch, an undocumented value, a
second input file and a missing value are errors. -/
theorem C47_accepts_iff (args : List String) :
    (∃ o, readOptions cv args (Options.init cv) = .ok o) ↔ ∃ ts, CmdLine ts ∧ args = ts.flatMap Tok.args := by
  constructor
  · rintro ⟨o, h⟩
    obtain ⟨ts, h1, h2, h3⟩ := readOptions_ok (cv := cv) args.length args _ o le_rfl h
    exact ⟨ts, ⟨h1, by simpa [Options.init] using h2⟩, h3⟩
  · rintro ⟨ts, h, rfl⟩
    exact ⟨_, C47_accepts h⟩

/-- **C47, a missing value is an error**: after every well-formed beginning. -/
theorem C47_missing_value {ts : List Tok} (h : CmdLine ts) {sw : String} (hs : sw ∈ valNames) :
    readOptions cv (ts.flatMap Tok.args ++ [sw]) (Options.init cv) = .exit1 := by
  rw [readOptions_toks ts [sw] _ h.1 (by simpa [Options.init] using h.2), readOptions]
  obtain ⟨f, hk⟩ := kind_val (cv := cv) hs
  simp only [hk]

/-- the program stops with status 0 only if the help or the version was asked for -/
theorem C47_exit0 : ∀ (args : List String) (o : Options R), readOptions cv args o = .exit0 →
    ∃ a ∈ args, a ∈ ["-h", "--help", "--version"]
  | [], o, h => by cases h
  | a :: rest, o, h => by
    rcases kind_inv (cv := cv) a with ⟨ha, f, hk⟩ | ⟨ha, f, hk⟩ | ⟨ha, hk⟩ | hk | ⟨ha, hk⟩
    · cases rest with
      | nil =>
        rw [readOptions] at h
        simp only [hk] at h
        cases h
      | cons v rest =>
        rw [readOptions_val hk] at h
        by_cases hv : allowed a v
        · obtain ⟨f', hk', hf'⟩ := val_effect (cv := cv) ha hv o
          rw [hk] at hk'
          cases hk'
          rw [hf'] at h
          obtain ⟨b, hb, hb'⟩ := C47_exit0 rest _ h
          exact ⟨b, List.mem_cons_of_mem _ (List.mem_cons_of_mem _ hb), hb'⟩
        · rw [val_reject hv hk] at h
          cases h
    · rw [readOptions_flag hk] at h
      obtain ⟨b, hb, hb'⟩ := C47_exit0 rest _ h
      exact ⟨b, List.mem_cons_of_mem _ hb, hb'⟩
    · exact ⟨a, List.mem_cons_self, ha⟩
    · rw [readOptions_stop hk] at h
      cases h
    · rw [readOptions_file hk] at h
      by_cases hi : o.inputFile.isSome = true
      · rw [if_pos hi] at h
        cases h
      · rw [if_neg hi] at h
        obtain ⟨b, hb, hb'⟩ := C47_exit0 rest _ h
        exact ⟨b, List.mem_cons_of_mem _ hb, hb'⟩

/-! ### a later value wins -/

theorem fold_last {α : Type} (π : Options R → α) (g : Tok → Option α)
    (hg : ∀ t o, π (specStep cv t o) = (g t).getD (π o)) (ts : List Tok) (o : Options R) :
    π (ts.foldl (fun o t => specStep cv t o) o) = ((ts.filterMap g).getLast?).getD (π o) := by
  induction ts generalizing o with
  | nil => rfl
  | cons t ts ih =>
    rw [List.foldl_cons, ih, hg, List.filterMap_cons]
    cases hgt : g t with
    | none => rfl
    | some x =>
      dsimp only
      rw [List.getLast?_cons]
      cases h : (ts.filterMap g).getLast? <;> rfl

theorem last_map {α : Type} (names : List String) (f : String → α) (ts : List Tok) :
    (ts.filterMap fun t => (t.valueOf names).map f).getLast? = (lastVal names ts).map f := by
  have : (ts.filterMap fun t => (t.valueOf names).map f) = (ts.filterMap (Tok.valueOf names)).map f := by
    rw [List.map_filterMap]
  rw [this, List.getLast?_map]
  rfl

theorem last_bind {α : Type} (names : List String) (f : String → Option α) (ts : List Tok)
    (hf : ∀ t ∈ ts, ∀ v, t.valueOf names = some v → (f v).isSome) :
    (ts.filterMap fun t => (t.valueOf names).bind f).getLast? = (lastVal names ts).bind f := by
  unfold lastVal
  induction ts with
  | nil => rfl
  | cons t ts ih =>
    have ih' := ih fun s hs => hf s (List.mem_cons_of_mem _ hs)
    rw [List.filterMap_cons, List.filterMap_cons]
    cases h : t.valueOf names with
    | none => exact ih'
    | some v =>
      obtain ⟨x, hx⟩ := Option.isSome_iff_exists.1 (hf t List.mem_cons_self v h)
      change (match f v with
        | none => List.filterMap (fun t : Tok => (t.valueOf names).bind f) ts
        | some b => b :: List.filterMap (fun t : Tok => (t.valueOf names).bind f) ts).getLast? = _
      rw [hx]
      dsimp only
      rw [List.getLast?_cons, List.getLast?_cons, ih']
      cases h' : (ts.filterMap (Tok.valueOf names)).getLast? with
      | none => simp [hx]
      | some w =>
        have hw : w ∈ ts.filterMap (Tok.valueOf names) := List.mem_of_getLast? h'
        obtain ⟨s, hs, hs'⟩ := List.mem_filterMap.1 hw
        obtain ⟨y, hy⟩ := Option.isSome_iff_exists.1 (hf s (List.mem_cons_of_mem _ hs) w hs')
        simp [hy]

theorem fold_or (π : Options R → Bool) (g : Tok → Bool) (hg : ∀ t o, π (specStep cv t o) = (π o || g t))
    (ts : List Tok) (o : Options R) :
    π (ts.foldl (fun o t => specStep cv t o) o) = true ↔ π o = true ∨ ∃ t ∈ ts, g t = true := by
  induction ts generalizing o with
  | nil => simp
  | cons t ts ih =>
    rw [List.foldl_cons, ih, hg]
    simp [or_assoc]

theorem valueOf_inv {t : Tok} {names : List String} {v : String} (h : t.valueOf names = some v) :
    ∃ a ∈ names, t = .val a v := by
  cases t with
  | val a w =>
    by_cases ha : a ∈ names
    · rw [Tok.valueOf, if_pos ha] at h
      cases h
      exact ⟨a, ha, rfl⟩
    · rw [Tok.valueOf, if_neg ha] at h
      cases h
  | flag a => cases h
  | file a => cases h

/-- **C47, every switch has its documented effect and a later value wins**: the result of a well-formed command line, field
by field. -/
theorem C47_values_partial {ts : List Tok} (h : CmdLine ts) {o : Options R}
    (ho : readOptions cv (ts.flatMap Tok.args) (Options.init cv) = .ok o) :
    o.action = ((lastVal ["-a"] ts).bind actionOf).getD .lll ∧
    o.method = ((lastVal ["-m"] ts).bind methodOf).getD .wrapper ∧
    o.intType = ((lastVal ["-z"] ts).bind intOf).getD .mpz ∧
    o.floatType = (lastVal ["-f"] ts).bind floatOf ∧
    o.delta = ((lastVal ["-d", "-delta"] ts).map cv.atof).getD cv.defDelta ∧
    o.eta = ((lastVal ["-e", "-eta"] ts).map cv.atof).getD cv.defEta ∧
    o.theta = ((lastVal ["-t", "-theta"] ts).map cv.atof).getD cv.defTheta ∧
    o.c = ((lastVal ["-c", "-r"] ts).map cv.atof).getD cv.defC ∧
    o.precision = ((lastVal ["-p"] ts).map cv.atoi).getD 0 ∧
    o.blockSize = ((lastVal ["-b"] ts).map cv.atoi).getD 0 ∧
    o.siegel = ((lastVal ["-l"] ts).map fun v => decide (cv.atoi v = 0)).getD false ∧
    o.bkzMaxLoops = ((lastVal ["-bkzmaxloops"] ts).map cv.atoi).getD 0 ∧
    o.bkzMaxTime = ((lastVal ["-bkzmaxtime"] ts).map cv.atof).getD cv.zero ∧
    o.ghFactor = ((lastVal ["-bkzghbound"] ts).map cv.atof).getD cv.defGh ∧
    o.dumpFile = (lastVal ["-bkzdumpgso"] ts).getD "" ∧
    o.strategyFile = (lastVal ["-s"] ts).getD "" ∧
    o.outputFormat = lastVal ["-of"] ts ∧
    o.pruneStart = (lastVal ["-prustart"] ts).map cv.atoi ∧
    o.pruneEnd = (lastVal ["-pruend"] ts).map cv.atoi ∧
    o.prunePreNodes = (lastVal ["-pruprenodes"] ts).map cv.atof ∧
    o.pruneMinProb = (lastVal ["-pruminprob"] ts).map cv.atof := by
  rw [C47_accepts h] at ho
  cases ho
  have hmap : ∀ {α : Type} (π : Options R → α) (names : List String) (f : String → α),
      (∀ t o, π (specStep cv t o) = ((t.valueOf names).map f).getD (π o)) →
      π (ts.foldl (fun o t => specStep cv t o) (Options.init cv)) =
        ((lastVal names ts).map f).getD (π (Options.init cv)) := by
    intro α π names f hπ
    rw [fold_last π _ hπ, last_map]
  have hbind : ∀ {α : Type} (π : Options R → α) (name : String) (f : String → Option α),
      (∀ t o, π (specStep cv t o) = ((t.valueOf [name]).bind f).getD (π o)) →
      (∀ v, allowed name v → (f v).isSome) →
      π (ts.foldl (fun o t => specStep cv t o) (Options.init cv)) =
        ((lastVal [name] ts).bind f).getD (π (Options.init cv)) := by
    intro α π name f hπ hf
    rw [fold_last π _ hπ, last_bind]
    intro t ht v hv
    obtain ⟨a, ha, rfl⟩ := valueOf_inv hv
    obtain rfl := List.mem_singleton.1 ha
    exact hf v (h.1 _ ht).2
  have hopt : ∀ {α : Type} (π : Options R → Option α) (names : List String) (f : String → α),
      π (Options.init cv) = none →
      (∀ t o, π (specStep cv t o) = ((t.valueOf names).map fun v => some (f v)).getD (π o)) →
      π (ts.foldl (fun o t => specStep cv t o) (Options.init cv)) = (lastVal names ts).map f := by
    intro α π names f h0 hπ
    rw [hmap π names (fun v => some (f v)) hπ, h0]
    cases lastVal names ts <;> rfl
  refine ⟨?_, ?_, ?_, ?_, ?_, ?_, ?_, ?_, ?_, ?_, ?_, ?_, ?_, ?_, ?_, ?_, ?_, ?_, ?_, ?_, ?_⟩
  · refine hbind Options.action "-a" actionOf (fun _ _ => rfl) fun v hv => ?_
    have := hv.1 rfl
    simp only [List.mem_cons, List.not_mem_nil, or_false] at this
    rcases this with rfl | rfl | rfl | rfl | rfl | rfl | rfl | rfl | rfl <;> rfl
  · refine hbind Options.method "-m" methodOf (fun _ _ => rfl) fun v hv => ?_
    have := hv.2.2.1 rfl
    simp only [List.mem_cons, List.not_mem_nil, or_false] at this
    rcases this with rfl | rfl | rfl | rfl <;> rfl
  · refine hbind Options.intType "-z" intOf (fun _ _ => rfl) fun v hv => ?_
    have := hv.2.2.2 rfl
    simp only [List.mem_cons, List.not_mem_nil, or_false] at this
    rcases this with rfl | rfl | rfl | rfl <;> rfl
  · rw [hmap Options.floatType ["-f"] floatOf fun _ _ => rfl]
    cases lastVal ["-f"] ts <;> rfl
  · exact hmap Options.delta _ _ fun _ _ => rfl
  · exact hmap Options.eta _ _ fun _ _ => rfl
  · exact hmap Options.theta _ _ fun _ _ => rfl
  · exact hmap Options.c _ _ fun _ _ => rfl
  · exact hmap Options.precision _ _ fun _ _ => rfl
  · exact hmap Options.blockSize _ _ fun _ _ => rfl
  · exact hmap Options.siegel _ _ fun _ _ => rfl
  · exact hmap Options.bkzMaxLoops _ _ fun _ _ => rfl
  · exact hmap Options.bkzMaxTime _ _ fun _ _ => rfl
  · exact hmap Options.ghFactor _ _ fun _ _ => rfl
  · refine (hmap Options.dumpFile ["-bkzdumpgso"] id fun t o => ?_).trans ?_
    · rw [Option.map_id]
      rfl
    · rw [Option.map_id]
      rfl
  · refine (hmap Options.strategyFile ["-s"] id fun t o => ?_).trans ?_
    · rw [Option.map_id]
      rfl
    · rw [Option.map_id]
      rfl
  · refine (hopt Options.outputFormat ["-of"] id rfl fun t o => rfl).trans ?_
    rw [Option.map_id]
    rfl
  · exact hopt Options.pruneStart _ _ rfl fun _ _ => rfl
  · exact hopt Options.pruneEnd _ _ rfl fun _ _ => rfl
  · exact hopt Options.prunePreNodes _ _ rfl fun _ _ => rfl
  · exact hopt Options.pruneMinProb _ _ rfl fun _ _ => rfl

theorem fold_file (a : String) : ∀ (ts : List Tok) (o : Options R),
    (ts.filter Tok.isFile).length + (if o.inputFile.isSome then 1 else 0) ≤ 1 →
    ((ts.foldl (fun o t => specStep cv t o) o).inputFile = some a ↔ o.inputFile = some a ∨ Tok.file a ∈ ts)
  | [], o, _ => by simp
  | t :: ts, o, h => by
    rw [List.foldl_cons, fold_file a ts _ ?_]
    · cases t with
      | file b =>
        rw [List.filter_cons_of_pos rfl, List.length_cons] at h
        have ho : ¬ o.inputFile.isSome = true := by
          intro h'
          rw [if_pos h'] at h
          omega
        have ho' : o.inputFile = none := by simpa using ho
        simp only [specStep, ho', List.mem_cons, Tok.file.injEq, Option.some.injEq, reduceCtorEq, false_or]
        exact or_congr eq_comm Iff.rfl
      | flag b => simp [specStep]
      | val b v => simp [specStep]
    · rw [specStep_file]
      cases t with
      | file b =>
        rw [List.filter_cons_of_pos rfl, List.length_cons] at h
        simp only [Tok.isFile, Bool.or_true, if_true]
        omega
      | flag b => simpa [Tok.isFile] using h
      | val b v => simpa [Tok.isFile] using h

/-- the flag of a token, bit by bit -/
theorem bkzFlag_flag (a : String) (i : ℕ) : (Tok.flag a).bkzFlag.testBit i = true ↔
    a = "-bkzboundedlll" ∧ i = 4 ∨ a = "-bkzautoabort" ∧ i = 5 := by
  have h4 : BKZ_BOUNDED_LLL = 2 ^ 4 := rfl
  have h5 : BKZ_AUTO_ABORT = 2 ^ 5 := rfl
  unfold Tok.bkzFlag
  dsimp only
  by_cases h1 : a = "-bkzboundedlll"
  · subst h1
    rw [if_pos rfl, h4, Nat.testBit_two_pow]
    simp [eq_comm]
  · rw [if_neg h1]
    by_cases h2 : a = "-bkzautoabort"
    · subst h2
      rw [if_pos rfl, h5, Nat.testBit_two_pow]
      simp [eq_comm]
    · rw [if_neg h2]
      simp [h1, h2]

theorem bkzFlag_val (a v : String) (i : ℕ) : (Tok.val a v).bkzFlag.testBit i = true ↔
    a = "-bkzmaxloops" ∧ i = 2 ∨ a = "-bkzmaxtime" ∧ i = 3 ∨ a = "-bkzdumpgso" ∧ i = 6 ∨ a = "-bkzghbound" ∧ i = 7 ∨
    (a = "-a" ∧ v = "sdb") ∧ i = 8 ∨ (a = "-a" ∧ v = "sld") ∧ i = 9 := by
  have h2 : BKZ_MAX_LOOPS = 2 ^ 2 := rfl
  have h3 : BKZ_MAX_TIME = 2 ^ 3 := rfl
  have h6 : BKZ_DUMP_GSO = 2 ^ 6 := rfl
  have h7 : BKZ_GH_BND = 2 ^ 7 := rfl
  have h8 : BKZ_SD_VARIANT = 2 ^ 8 := rfl
  have h9 : BKZ_SLD_RED = 2 ^ 9 := rfl
  unfold Tok.bkzFlag
  dsimp only
  by_cases e1 : a = "-bkzmaxloops"
  · subst e1
    rw [if_pos rfl, h2, Nat.testBit_two_pow]
    simp [eq_comm]
  rw [if_neg e1]
  by_cases e2 : a = "-bkzmaxtime"
  · subst e2
    rw [if_pos rfl, h3, Nat.testBit_two_pow]
    simp [eq_comm]
  rw [if_neg e2]
  by_cases e3 : a = "-bkzdumpgso"
  · subst e3
    rw [if_pos rfl, h6, Nat.testBit_two_pow]
    simp [eq_comm]
  rw [if_neg e3]
  by_cases e4 : a = "-bkzghbound"
  · subst e4
    rw [if_pos rfl, h7, Nat.testBit_two_pow]
    simp [eq_comm]
  rw [if_neg e4]
  by_cases e5 : a = "-a" ∧ v = "sdb"
  · obtain ⟨rfl, rfl⟩ := e5
    rw [if_pos ⟨rfl, rfl⟩, h8, Nat.testBit_two_pow]
    simp [eq_comm]
  rw [if_neg e5]
  by_cases e6 : a = "-a" ∧ v = "sld"
  · obtain ⟨rfl, rfl⟩ := e6
    rw [if_pos ⟨rfl, rfl⟩, h9, Nat.testBit_two_pow]
    simp [eq_comm]
  rw [if_neg e6]
  simp [e1, e2, e3, e4, e5, e6]

theorem exists_flag_iff {p : Tok → Prop} {name : String} {ts : List Tok} (h1 : ∀ a, p (.flag a) ↔ a = name)
    (h2 : ∀ a v, ¬ p (.val a v)) (h3 : ∀ a, ¬ p (.file a)) : (∃ t ∈ ts, p t) ↔ hasFlag name ts := by
  refine exists_congr fun t => and_congr_right fun _ => ?_
  cases t with
  | flag a => simp [Tok.isFlag, h1]
  | val a v => simp [Tok.isFlag, h2]
  | file a => simp [Tok.isFlag, h3]

theorem exists_val_iff {p : Tok → Prop} {name : String} {q : String → Prop} {ts : List Tok} (h1 : ∀ a, ¬ p (.flag a))
    (h2 : ∀ a v, p (.val a v) ↔ a = name ∧ q v) (h3 : ∀ a, ¬ p (.file a)) : (∃ t ∈ ts, p t) ↔ hasVal [name] q ts := by
  refine exists_congr fun t => and_congr_right fun _ => ?_
  cases t with
  | flag a => simp [h1]
  | val a v =>
    rw [h2]
    constructor
    · rintro ⟨rfl, hq⟩
      exact ⟨a, v, rfl, List.mem_singleton.2 rfl, hq⟩
    · rintro ⟨a', v', he, ha, hq⟩
      cases he
      exact ⟨List.mem_singleton.1 ha, hq⟩
  | file a => simp [h3]

/-- **C47, switches without value, the input file and the BKZ flags.** -/
theorem C47_flags {ts : List Tok} (h : CmdLine ts) {o : Options R}
    (ho : readOptions cv (ts.flatMap Tok.args) (Options.init cv) = .ok o) :
    (o.noLll = true ↔ hasFlag "-nolll" ts) ∧ (o.verbose = true ↔ hasFlag "-v" ts) ∧
    (o.earlyRed = true ↔ hasFlag "-y" ts) ∧ (∀ a, o.inputFile = some a ↔ Tok.file a ∈ ts) ∧
    (o.bkzFlags.testBit 2 = true ↔ hasVal ["-bkzmaxloops"] (fun _ => True) ts) ∧
    (o.bkzFlags.testBit 3 = true ↔ hasVal ["-bkzmaxtime"] (fun _ => True) ts) ∧
    (o.bkzFlags.testBit 4 = true ↔ hasFlag "-bkzboundedlll" ts) ∧
    (o.bkzFlags.testBit 5 = true ↔ hasFlag "-bkzautoabort" ts) ∧
    (o.bkzFlags.testBit 6 = true ↔ hasVal ["-bkzdumpgso"] (fun _ => True) ts) ∧
    (o.bkzFlags.testBit 7 = true ↔ hasVal ["-bkzghbound"] (fun _ => True) ts) ∧
    (o.bkzFlags.testBit 8 = true ↔ hasVal ["-a"] (· = "sdb") ts) ∧
    (o.bkzFlags.testBit 9 = true ↔ hasVal ["-a"] (· = "sld") ts) ∧
    (∀ i, i < 2 ∨ 9 < i → o.bkzFlags.testBit i = false) := by
  rw [C47_accepts h] at ho
  cases ho
  have hb : ∀ i, (ts.foldl (fun o t => specStep cv t o) (Options.init cv)).bkzFlags.testBit i = true ↔
      ∃ t ∈ ts, t.bkzFlag.testBit i = true := by
    intro i
    rw [fold_or (fun o => o.bkzFlags.testBit i) (fun t => t.bkzFlag.testBit i) fun t o => ?_]
    · simp [Options.init]
    · exact Nat.testBit_or _ _ _
  have hflag : ∀ (π : Options R → Bool) (name : String), π (Options.init cv) = false →
      (∀ t o, π (specStep cv t o) = (π o || t.isFlag name)) →
      (π (ts.foldl (fun o t => specStep cv t o) (Options.init cv)) = true ↔ hasFlag name ts) := by
    intro π name h0 hπ
    rw [fold_or π _ hπ, h0]
    simp [hasFlag]
  have hz : ∀ (a : String) (i : ℕ), ¬ (Tok.file a).bkzFlag.testBit i = true := by
    intro a i
    simp [Tok.bkzFlag]
  refine ⟨hflag Options.noLll "-nolll" rfl fun _ _ => rfl, hflag Options.verbose "-v" rfl fun _ _ => rfl,
    hflag Options.earlyRed "-y" rfl fun _ _ => rfl, fun a => ?_, ?_, ?_, ?_, ?_, ?_, ?_, ?_, ?_, ?_⟩
  · rw [fold_file a ts _ (by simpa [Options.init] using h.2)]
    simp [Options.init]
  · exact (hb 2).trans (exists_val_iff (fun a => by rw [bkzFlag_flag]; omega)
      (fun a v => by rw [bkzFlag_val]; simp) fun a => hz a _)
  · exact (hb 3).trans (exists_val_iff (fun a => by rw [bkzFlag_flag]; omega)
      (fun a v => by rw [bkzFlag_val]; simp) fun a => hz a _)
  · exact (hb 4).trans (exists_flag_iff (fun a => by rw [bkzFlag_flag]; simp)
      (fun a v => by rw [bkzFlag_val]; omega) fun a => hz a _)
  · exact (hb 5).trans (exists_flag_iff (fun a => by rw [bkzFlag_flag]; simp)
      (fun a v => by rw [bkzFlag_val]; omega) fun a => hz a _)
  · exact (hb 6).trans (exists_val_iff (fun a => by rw [bkzFlag_flag]; omega)
      (fun a v => by rw [bkzFlag_val]; simp) fun a => hz a _)
  · exact (hb 7).trans (exists_val_iff (fun a => by rw [bkzFlag_flag]; omega)
      (fun a v => by rw [bkzFlag_val]; simp) fun a => hz a _)
  · exact (hb 8).trans (exists_val_iff (fun a => by rw [bkzFlag_flag]; omega)
      (fun a v => by rw [bkzFlag_val]; simp) fun a => hz a _)
  · exact (hb 9).trans (exists_val_iff (fun a => by rw [bkzFlag_flag]; omega)
      (fun a v => by rw [bkzFlag_val]; simp) fun a => hz a _)
  · intro i hi
    rw [← Bool.not_eq_true, hb i]
    rintro ⟨t, _, ht⟩
    cases t with
    | flag a =>
      rw [bkzFlag_flag] at ht
      omega
    | val a v =>
      rw [bkzFlag_val] at ht
      omega
    | file a => exact hz a i ht

/-- A command line, to see that the hypotheses are met: the second `-d` wins, the input file may stand anywhere. -/
example : CmdLine [.val "-d" "0.9", .flag "-v", .file "in", .val "-a" "bkz", .val "-delta" "0.99"] := by
  refine ⟨?_, by decide⟩
  intro t ht
  simp only [List.mem_cons, List.not_mem_nil, or_false] at ht
  rcases ht with rfl | rfl | rfl | rfl | rfl
  · exact ⟨by decide, by unfold allowed; decide +kernel⟩
  · change _ ∈ flagNames
    decide
  · change _ ≠ _
    decide
  · exact ⟨by decide, by unfold allowed; decide +kernel⟩
  · exact ⟨by decide, by unfold allowed; decide +kernel⟩

/-! ### where the claim fails -/

/-- The property for `-a`: a later value wins, so the result only depends on the last one. -/
def ActionLastWins (cv : Conv R) : Prop :=
  ∀ v w o1 o2, readOptions cv ["-a", v, "-a", w] (Options.init cv) = .ok o1 →
    readOptions cv ["-a", w] (Options.init cv) = .ok o2 → o1 = o2

/-- **C47, violated**: after `-a sdb` a later `-a bkz` still runs self-dual BKZ. -/
theorem C47_violated (cv : Conv R) : ¬ ActionLastWins cv := by
  intro h
  have := h "sdb" "bkz" _ _ rfl rfl
  have h' : (0 ||| BKZ_SD_VARIANT : ℕ) = 0 := congrArg Options.bkzFlags this
  exact absurd h' (by decide)

/-- **C47, violated**: the documentation of `-r` (ignored) does not hold, it overwrites the value of `-c`. -/
theorem C47_r_violated (cv : Conv R) : ∃ o, readOptions cv ["-c", "0.2", "-r", "3"] (Options.init cv) = .ok o ∧
    o.c = cv.atof "3" := ⟨_, rfl, rfl⟩

/-- **C47, violated**: action `pru` without all four of its switches reads a member that was never initialised
(main.cpp:402-412). -/
theorem C47_prune_uninitialised {ts : List Tok} (h : CmdLine ts) {o : Options R}
    (ho : readOptions cv (ts.flatMap Tok.args) (Options.init cv) = .ok o) (dflt : ℤ) :
    pruneArg 0 dflt o.pruneStart = none ↔ lastVal ["-prustart"] ts = none := by
  have := (C47_values_partial h ho).2.2.2.2.2.2.2.2.2.2.2.2.2.2.2.2.2.1
  rw [this]
  cases lastVal ["-prustart"] ts <;> simp [pruneArg]

/-! ## C54: `fplll -a svp` -/

/-- `v` (first `n` coordinates) is a shortest non-zero vector of the lattice generated by the rows of `b` -/
def IsShortestVector (d n : ℕ) (b : ℕ → ℕ → ℤ) (v : Fin n → ℤ) : Prop :=
  v ∈ lattice (toM d n b) ∧ v ≠ 0 ∧ ∀ w ∈ lattice (toM d n b), w ≠ 0 → ∑ c, v c ^ 2 ≤ ∑ c, w c ^ 2

theorem vecMul_comb (d n : ℕ) (b : ℕ → ℕ → ℤ) (x : ℕ → ℤ) (c : Fin n) :
    Matrix.vecMul (fun i : Fin d => x i) (toM d n b) c = comb d b x c := by
  unfold comb toM Matrix.vecMul dotProduct
  exact Fin.sum_univ_eq_sum_range (fun i => x i * b i c) d

theorem mem_lattice_iff (d n : ℕ) (b : ℕ → ℕ → ℤ) (v : Fin n → ℤ) :
    v ∈ lattice (toM d n b) ↔ ∃ x : ℕ → ℤ, ∀ c : Fin n, v c = comb d b x c := by
  constructor
  · rintro ⟨x, rfl⟩
    refine ⟨fun i => if h : i < d then x ⟨i, h⟩ else 0, fun c => ?_⟩
    rw [← vecMul_comb]
    congr 1
    funext i
    simp
  · rintro ⟨x, hx⟩
    refine ⟨fun i => x i, ?_⟩
    funext c
    rw [hx, vecMul_comb]

theorem isShortest_vector {d n : ℕ} {b : ℕ → ℕ → ℤ} {x : ℕ → ℤ} (h : IsShortest d n b x) :
    IsShortestVector d n b fun c => comb d b x c := by
  refine ⟨(mem_lattice_iff d n b _).2 ⟨x, fun _ => rfl⟩, ?_, ?_⟩
  · intro h0
    obtain ⟨c, hc, hne⟩ := h.1
    exact hne (congrFun h0 ⟨c, hc⟩)
  · intro w hw hw0
    obtain ⟨y, hy⟩ := (mem_lattice_iff d n b w).1 hw
    have hy' : ∃ c < n, comb d b y c ≠ 0 := by
      by_contra hcon
      push Not at hcon
      apply hw0
      funext c
      rw [hy, hcon c c.2]
      rfl
    have := h.2 y hy'
    unfold sqLen at this
    rw [← Fin.sum_univ_eq_sum_range (fun c => comb d b x c ^ 2), ← Fin.sum_univ_eq_sum_range (fun c => comb d b y c ^ 2)] at this
    refine this.trans (le_of_eq ?_)
    exact Finset.sum_congr rfl fun c _ => by rw [hy]

theorem vecMatChecked_eq (d n : ℕ) (x : ℕ → ℤ) (m : Mat ℤ) :
    vecMatChecked d d n x m = some ((List.range n).map (comb d m x)) := by
  unfold vecMatChecked
  rw [if_pos rfl]
  congr 1
  refine List.map_congr_left fun c hc => ?_
  rw [SVP.vecMat_eq, if_pos (List.mem_range.1 hc)]

variable {c : Cfg} {run : Runner}

/-- the call of `lll_reduction` made by `svpcvp` -/
def svpLll (c : Cfg) (run : Runner) (lllFuel : ℕ) (b junk : Mat ℤ) : Wrapper.Outcome (RedStatus × Triple) :=
  lllReduction c run lllFuel ⟨.wrapper, .mpz, none, 0, false⟩ ⟨b, none, none⟩ junk

/-- **C54.**  `fplll -a svp` (default output) on independent rows, for every floating-point behaviour inside the LLL
reduction and every build: if the LLL reduction reports success, what is printed is a shortest non-zero vector of the *input*
lattice; otherwise nothing is printed. -/
theorem C54_svp_partial (w : World) (hd : 1 ≤ c.d) (hn : c.d ≤ c.n)
    (hg : ∀ x : ℤ, -2 ^ 63 ≤ x → x < 2 ^ 63 → c.getSi x = x) (b junk jz : Mat ℤ) (jf : Mat Exact)
    (h : Indep c.d c.n (basisQ b)) {err : ℚ → ℚ} (herr : ∀ q, 0 ≤ q → 0 ≤ err q)
    (hmono : ∀ x y : ℚ, 0 ≤ x → x ≤ y → x + err x ≤ y + err y) (lllFuel : ℕ) (hf : c.goodPrec.toNat + 2 ≤ lllFuel) :
    ∃ s m', svpLll c (lllRun w c.d c.n) lllFuel b junk = .done (s, m') ∧
      (s ≠ .success → ∀ fuel, svpCmd c (lllRun w c.d c.n) err lllFuel fuel false ['s'] b junk jz jf = .failed) ∧
      (s = .success → ∃ N, ∀ fuel, N ≤ fuel → ∃ v, svpCmd c (lllRun w c.d c.n) err lllFuel fuel false ['s'] b junk jz jf =
        .ok ⟨none, some v⟩ ∧ v.length = c.n ∧ IsShortestVector c.d c.n b fun i => v.getD i 0) := by
  obtain ⟨s, m', hlll⟩ : ∃ s m', svpLll c (lllRun w c.d c.n) lllFuel b junk = .done (s, m') := by
    rcases C53_stops (c := c) (run := lllRun w c.d c.n) lllFuel ⟨.wrapper, .mpz, none, 0, false⟩ ⟨b, none, none⟩ junk hf with
      habort | ⟨⟨s, m'⟩, hr⟩
    · exfalso
      unfold lllReduction lllReductionZ at habort
      have : lllChoice c.bld c.goodPrec ⟨.wrapper, .mpz, none, 0, false⟩ = .wrapper := rfl
      rw [this] at habort
      dsimp only at habort
      cases hw : lllReductionWrapper c (lllRun w c.d c.n) lllFuel
        ⟨b, identityIf none, (identityIf none).map transposeMat⟩ junk with
      | none => rw [hw] at habort; cases habort
      | some q => rw [hw] at habort; cases habort
    · exact ⟨s, m', hr⟩
  refine ⟨s, m', hlll, ?_, ?_⟩
  · intro hs fuel
    unfold svpCmd
    unfold svpLll at hlll
    simp only [hlll, Bool.false_eq_true, if_false, if_neg hs]
  · rintro rfl
    have hred := C53_lll_reduction w hd (hd.trans hn) hg lllFuel _ _ junk _ _ hlll
    have hind : Indep c.d c.n (basisQ m'.b) := Spec.Indep.of_lattice h hred.1
    obtain ⟨N, hN⟩ := SVP.C17_shortest_vector_proved hd hn m'.b jz jf hind herr hmono
    refine ⟨N, fun fuel hfuel => ?_⟩
    obtain ⟨res, h1, h2, h3⟩ := hN fuel hfuel
    refine ⟨(List.range c.n).map (comb c.d m'.b res.coord), ?_, by simp, ?_⟩
    · unfold svpCmd
      unfold svpLll at hlll
      simp only [hlll, Bool.false_eq_true, if_false, if_true, h1, h2]
      unfold svpFinish
      simp [vecMatChecked_eq]
    · have := isShortest_vector h3
      unfold IsShortestVector at this ⊢
      rw [hred.1] at this
      convert this using 2
      · funext i
        simp
      · simp
      · simp

/-- **C54, `-nolll`**: both formats are right: the coordinates are those of a shortest vector in the input basis. -/
theorem C54_svp_nolll_partial (hd : 1 ≤ c.d) (hn : c.d ≤ c.n) (b junk jz : Mat ℤ) (jf : Mat Exact)
    (h : Indep c.d c.n (basisQ b)) {err : ℚ → ℚ} (herr : ∀ q, 0 ≤ q → 0 ≤ err q)
    (hmono : ∀ x y : ℚ, 0 ≤ x → x ≤ y → x + err x ≤ y + err y) (lllFuel : ℕ) :
    ∃ N, ∀ fuel, N ≤ fuel → ∃ x v, svpCmd c run err lllFuel fuel true ['c', 's'] b junk jz jf = .ok ⟨some x, some v⟩ ∧
      x.length = c.d ∧ v.length = c.n ∧ IsShortestVector c.d c.n b (fun i => v.getD i 0) ∧
      ∀ i < c.n, v.getD i 0 = ∑ k ∈ Finset.range c.d, x.getD k 0 * b k i := by
  obtain ⟨N, hN⟩ := SVP.C17_shortest_vector_proved hd hn b jz jf h herr hmono
  refine ⟨N, fun fuel hfuel => ?_⟩
  obtain ⟨res, h1, h2, h3⟩ := hN fuel hfuel
  refine ⟨(List.range c.d).map res.coord, (List.range c.n).map (comb c.d b res.coord), ?_, by simp, by simp, ?_, ?_⟩
  · unfold svpCmd
    simp only [if_true, h1, h2]
    unfold svpFinish
    simp [vecMatChecked_eq]
  · have := isShortest_vector h3
    convert this using 2
    simp
  · intro i hi
    simp only [List.getD_eq_getElem?_getD, List.getElem?_map, List.getElem?_range hi, Option.map_some, Option.getD_some]
    unfold comb
    refine Finset.sum_congr rfl fun k hk => ?_
    simp [List.getElem?_range (Finset.mem_range.1 hk)]

/-- **C54, violated**: with the documented format `c` (coordinates) and the default initial LLL reduction the program never
prints anything: `svpcvp` passes an empty matrix `u`, so no transformation is computed and the product with it aborts. -/
theorem C54_coord_violated (hd : 1 ≤ c.d) (err : ℚ → ℚ) (lllFuel fuel : ℕ) (format : List Char) (hc : 'c' ∈ format)
    (b junk jz : Mat ℤ) (jf : Mat Exact) (out : SvpOut) :
    svpCmd c run err lllFuel fuel false format b junk jz jf ≠ .ok out := by
  intro h
  unfold svpCmd at h
  simp only [Bool.false_eq_true, if_false] at h
  cases hl : lllReduction c run lllFuel ⟨.wrapper, .mpz, none, 0, false⟩ ⟨b, none, none⟩ junk with
  | abort => simp only [hl] at h; cases h
  | outOfFuel => simp only [hl] at h; cases h
  | done q =>
    obtain ⟨s, m'⟩ := q
    simp only [hl] at h
    by_cases hs : s = .success
    · simp only [if_pos hs] at h
      cases hv : SVP.svpBasis c.d c.n m'.b jz jf err (SVP.shortestArgs .proved false false) fuel with
      | abort => simp only [hv] at h; cases h
      | ub => simp only [hv] at h; cases h
      | running => simp only [hv] at h; cases h
      | done res =>
        simp only [hv] at h
        by_cases hsu : res.success = true
        · rw [if_pos hsu] at h
          unfold svpFinish vecMatChecked at h
          simp only [hc, decide_true, if_true, Bool.false_eq_true, if_false] at h
          rw [if_neg (by omega)] at h
          simp at h
        · rw [if_neg hsu] at h
          cases h
    · simp only [if_neg hs] at h
      cases h

/-- Non-vacuity: the program run on the basis (2, 0), (3, 1): it prints `(1, 1)`; with `-of c` it aborts. -/
def printed : Run SvpOut → Option (Option SvpOut)
  | .ok r => some (some r)
  | .abort => some none
  | _ => none

example : printed (svpCmd exCfg2 (lllRun exWorld 2 2) (fun _ => 0) 100 100 false ['s'] exIn.b (fun _ _ => 0) (fun _ _ => 5)
      fun _ _ => none) = some (some ⟨none, some [1, 1]⟩) ∧
    printed (svpCmd exCfg2 (lllRun exWorld 2 2) (fun _ => 0) 100 100 false ['c'] exIn.b (fun _ _ => 0) (fun _ _ => 5)
      fun _ _ => none) = some none ∧
    printed (svpCmd exCfg2 (lllRun exWorld 2 2) (fun _ => 0) 100 100 true ['c', 's'] exIn.b (fun _ _ => 0) (fun _ _ => 5)
      fun _ _ => none) = some (some ⟨some [-1, 1], some [1, 1]⟩) := by decide +kernel

example : Indep 2 2 (basisQ exIn.b) := indep_of_pos (by decide +kernel)

/-! ## C55: output formats of the action `lll` -/

/-- the documented format codes (README, `-of`), and the blank -/
inductive Code
  | b | bk | u | uk | v | vk | t | blank

def Code.text : Code → List Char
  | .b => ['b']
  | .bk => ['b', 'k']
  | .u => ['u']
  | .uk => ['u', 'k']
  | .v => ['v']
  | .vk => ['v', 'k']
  | .t => ['t']
  | .blank => [' ']

/-- what a code asks for -/
def Code.item : Code → Item
  | .b => .b false
  | .bk => .b true
  | .u => .u false
  | .uk => .u true
  | .v => .v false
  | .vk => .v true
  | .t => .status
  | .blank => .newline

theorem text_head : ∀ (cs : List Code), (cs.flatMap Code.text).head? ≠ some 'k'
  | [] => nofun
  | x :: cs => by cases x <;> simp [Code.text]

/-- **C55.**  For every sequence of documented codes exactly the requested items are printed, in this order. -/
theorem C55_printed : ∀ (cs : List Code), printLll (cs.flatMap Code.text) = cs.map Code.item
  | [] => rfl
  | x :: cs => by
    have ih := C55_printed cs
    have hk := text_head cs
    rw [List.flatMap_cons, List.map_cons, ← ih]
    generalize cs.flatMap Code.text = r at hk
    cases r with
    | nil => cases x <;> rfl
    | cons a r =>
      have ha : a ≠ 'k' := fun e => hk (by rw [e]; rfl)
      cases x <;> simp [Code.text, Code.item, printLll, ha]

/-- **C55, transforms**: a matrix `u` or `u_inv` is only printed if it was computed. -/
theorem C55_computed (cs : List Code) :
    ((∃ k, Item.u k ∈ printLll (cs.flatMap Code.text)) → (wantTransforms (cs.flatMap Code.text)).1 = true) ∧
    ((∃ k, Item.v k ∈ printLll (cs.flatMap Code.text)) → (wantTransforms (cs.flatMap Code.text)).2 = true) := by
  rw [C55_printed]
  constructor
  · rintro ⟨k, hk⟩
    obtain ⟨x, hx, he⟩ := List.mem_map.1 hk
    unfold wantTransforms
    split_ifs with h1 h2
    · rfl
    · rfl
    · refine absurd (List.mem_flatMap.2 ⟨x, hx, ?_⟩) h2
      cases x <;> simp [Code.item, Code.text] at he ⊢
  · rintro ⟨k, hk⟩
    obtain ⟨x, hx, he⟩ := List.mem_map.1 hk
    unfold wantTransforms
    rw [if_pos]
    refine List.mem_flatMap.2 ⟨x, hx, ?_⟩
    cases x <;> simp [Code.item, Code.text] at he ⊢

end Cli
end Fplll
