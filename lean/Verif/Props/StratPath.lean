import Verif.Model.StratPath

/-!
# Which strategies file is loaded (C106)
-/

namespace Fplll
namespace StratPath

variable {S : Type} (parse : List ℕ → Option S) (posix : Bool) (fs : List Char → Node) (dflt path : List Char)

/-- the result for a file with these bytes -/
def read (c : List ℕ) : Out S := match parse c with
  | some s => .loaded s
  | none => .readError

theorem load_of_opens {q : List Char} {c : List ℕ} (h : fs q = .file c) : load parse posix fs dflt q = read parse c := by
  have hf : fullPath posix fs dflt q = q := by unfold fullPath; rw [h]; rfl
  unfold load read
  rw [hf, h, if_pos (show opens posix (.file c) = true from rfl)]
  dsimp only
  cases parse c <;> rfl

/-- searching twice, as `main` and `load_strategies_json` do, finds what searching once finds, when something is found -/
theorem fullPath_idem (h : opens posix (fs (fullPath posix fs dflt path)) = true) :
    fullPath posix fs dflt (fullPath posix fs dflt path) = fullPath posix fs dflt path := by
  have key : ∀ q, opens posix (fs q) = true → fullPath posix fs dflt q = q := fun q hq => by unfold fullPath; rw [if_pos hq]
  exact key _ h

/-- **C106, own file.** A file with the name given is the one that is loaded, whatever there is in the directory of the shipped strategies. -/
theorem C106_own (hn : path ≠ []) {c : List ℕ} (h : fs path = .file c) : mainLoad parse posix fs dflt path = some (read parse c) := by
  have hf : fullPath posix fs dflt path = path := by unfold fullPath; rw [h]; rfl
  unfold mainLoad
  rw [if_neg hn, hf, load_of_opens parse posix fs dflt h]

/-- **C106, shipped file.** If there is nothing of that name, the file of that name in the directory of the shipped strategies is loaded. -/
theorem C106_shipped (hn : path ≠ []) (h0 : fs path = .missing) {c : List ℕ} (h : fs (dflt ++ '/' :: path) = .file c) :
    mainLoad parse posix fs dflt path = some (read parse c) := by
  have hf : fullPath posix fs dflt path = dflt ++ '/' :: path := by unfold fullPath; rw [h0, h]; rfl
  unfold mainLoad
  rw [if_neg hn, hf, load_of_opens parse posix fs dflt h]

/-- **C106, no file.** If neither exists, nothing is loaded: the call ends with an exception.  (No file has an empty name or a name that
ends in a slash.) -/
theorem C106_missing (hn : path ≠ []) (h0 : fs path = .missing) (h : fs (dflt ++ '/' :: path) = .missing) (he : fs [] = .missing)
    (hs : ∀ c, fs (dflt ++ ['/']) ≠ .file c) :
    mainLoad parse posix fs dflt path = some .cannotOpen ∨ mainLoad parse posix fs dflt path = some .readError := by
  have hf : fullPath posix fs dflt path = [] := by unfold fullPath; rw [h0, h]; rfl
  unfold mainLoad
  rw [if_neg hn, hf]
  have h1 : fullPath posix fs dflt [] = if opens posix (fs (dflt ++ ['/'])) = true then dflt ++ ['/'] else [] := by
    unfold fullPath; rw [he]; rfl
  unfold load
  rw [h1]
  by_cases ho : opens posix (fs (dflt ++ ['/'])) = true
  · rw [if_pos ho, if_pos ho]
    right
    cases hd : fs (dflt ++ ['/']) with
    | missing => rfl
    | dir => rfl
    | file c => exact absurd hd (hs c)
  · rw [if_neg ho, he]
    left
    rfl

/-- **C106, only these.** Whatever is loaded comes from the bytes of one of the two files. -/
theorem C106_only {s : S} (he : fs [] = .missing) (hs : ∀ c, fs (dflt ++ ['/']) ≠ .file c)
    (h : mainLoad parse posix fs dflt path = some (.loaded s)) :
    ∃ c, parse c = some s ∧ (fs path = .file c ∨ fs (dflt ++ '/' :: path) = .file c) := by
  have key : ∀ q : List Char, opens posix (fs q) = true → load parse posix fs dflt q = .loaded s → ∃ c, parse c = some s ∧ fs q = .file c := by
    intro q hq hl
    have hf : fullPath posix fs dflt q = q := by unfold fullPath; rw [if_pos hq]
    unfold load at hl
    rw [hf, if_pos hq] at hl
    cases hd : fs q with
    | missing => rw [hd] at hl; cases hl
    | dir => rw [hd] at hl; cases hl
    | file c =>
      rw [hd] at hl
      refine ⟨c, ?_, rfl⟩
      cases hc : parse c with
      | none => simp [hc] at hl
      | some s' => simp [hc] at hl; rw [hl]
  unfold mainLoad at h
  split_ifs at h with hn
  simp only [Option.some.injEq] at h
  by_cases h1 : opens posix (fs path) = true
  · have hf : fullPath posix fs dflt path = path := by unfold fullPath; rw [if_pos h1]
    rw [hf] at h
    obtain ⟨c, hc, hd⟩ := key _ h1 h
    exact ⟨c, hc, Or.inl hd⟩
  · by_cases h2 : opens posix (fs (dflt ++ '/' :: path)) = true
    · have hf : fullPath posix fs dflt path = dflt ++ '/' :: path := by unfold fullPath; rw [if_neg h1, if_pos h2]
      rw [hf] at h
      obtain ⟨c, hc, hd⟩ := key _ h2 h
      exact ⟨c, hc, Or.inr hd⟩
    · have hf : fullPath posix fs dflt path = [] := by unfold fullPath; rw [if_neg h1, if_neg h2]
      rw [hf] at h
      exfalso
      have h3 : fullPath posix fs dflt [] = if opens posix (fs (dflt ++ ['/'])) = true then dflt ++ ['/'] else [] := by
        unfold fullPath; rw [he]; rfl
      unfold load at h
      rw [h3] at h
      by_cases ho : opens posix (fs (dflt ++ ['/'])) = true
      · rw [if_pos ho, if_pos ho] at h
        cases hd : fs (dflt ++ ['/']) with
        | missing => rw [hd] at h; cases h
        | dir => rw [hd] at h; cases h
        | file c => exact hs c hd
      · rw [if_neg ho, he] at h
        cases h

/-- **C106 violated, message.** When the directory of the shipped strategies exists, a missing file is not reported as such: the second
search looks for the empty name, finds the directory, and reading from it fails. -/
theorem C106_message_violated (hn : path ≠ []) (h0 : fs path = .missing) (h : fs (dflt ++ '/' :: path) = .missing) (he : fs [] = .missing)
    (hd : fs (dflt ++ ['/']) = .dir) : mainLoad parse true fs dflt path = some .readError := by
  have hf : fullPath true fs dflt path = [] := by unfold fullPath; rw [h0, h]; rfl
  have h1 : fullPath true fs dflt [] = dflt ++ ['/'] := by unfold fullPath; rw [he, hd]; rfl
  unfold mainLoad load
  rw [if_neg hn, hf, h1, hd]
  rfl

/-- **C106 violated, directories.** A directory with the name given hides the shipped file: nothing is loaded. -/
theorem C106_directory_violated (hn : path ≠ []) (h0 : fs path = .dir) : mainLoad parse true fs dflt path = some .readError := by
  have hf : fullPath true fs dflt path = path := by unfold fullPath; rw [h0]; rfl
  unfold mainLoad load
  rw [if_neg hn, hf, hf, h0]
  rfl

/-! ## A concrete file system -/

/-- `/s/` with the file `d` in it -/
def tree : List Char → Node := fun p =>
  if p = "/s/".toList then .dir else if p = "/s/d".toList then .file [91, 93] else .missing

example : mainLoad (fun c => some c.length) true tree "/s".toList "d".toList = some (.loaded 2) := by decide +kernel
example : mainLoad (fun c => some c.length) true tree "/s".toList "e".toList = some .readError := by decide +kernel
example : mainLoad (fun c => some c.length) false tree "/s".toList "e".toList = some .cannotOpen := by decide +kernel
example : mainLoad (fun c => some c.length) true tree "/s".toList [] = none := by decide +kernel
example : tree [] = .missing ∧ ∀ c, tree ("/s".toList ++ ['/']) ≠ .file c := by
  refine ⟨by decide +kernel, fun c h => ?_⟩
  have : tree ("/s".toList ++ ['/']) = .dir := by decide +kernel
  rw [this] at h; cases h

end StratPath
end Fplll
