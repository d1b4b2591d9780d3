import Verif.Model.Support
import Mathlib.Tactic

/-!
# C58, C59, C62, C63, C64: support code
-/

namespace OpenMS.Support

/-! ## C58: backend selection -/

/-- The documented meaning of a backend name: class, library and precision. -/
inductive Request : List Char → Cls → Lib → List Char → Prop
  | numpy : Request "numpy".toList .numpy .numpy "float64".toList
  | numpyType (d : List Char) : Request ("numpy.".toList ++ d) .numpy .numpy d
  | numpyCpu (d : List Char) : Request ("numpy.cpu.".toList ++ d) .numpy .numpy d
  | torch : Request "torch".toList .torch .torch "float64".toList
  | torchType (d : List Char) (h : d ≠ "cuda".toList) : Request ("torch.".toList ++ d) .torch .torch d
  | torchCpu (d : List Char) : Request ("torch.cpu.".toList ++ d) .torch .torch d
  | torchCuda : Request "torch.cuda".toList .torchCuda .torch "float64".toList
  | torchCudaType (d : List Char) : Request ("torch.cuda.".toList ++ d) .torchCuda .torch d

theorem parse_eq {name n dev d : List Char} (h : parseName name = some (n, dev, d)) :
    (name = n ∧ dev = "cpu".toList ∧ d = "float64".toList) ∨
    (name = n ++ '.' :: d ∧ dev = "cpu".toList ∧ d ≠ "cuda".toList) ∨
    (name = n ++ ".cuda".toList ∧ dev = "cuda".toList ∧ d = "float64".toList) ∨
    name = n ++ '.' :: dev ++ '.' :: d := by
  have hj := List.intercalate_splitOn (xs := name) '.'
  unfold parseName at h
  split at h
  · rename_i a ha
    rw [ha] at hj
    simp at hj h
    obtain ⟨rfl, rfl, rfl⟩ := h
    exact Or.inl ⟨hj.symm, rfl, rfl⟩
  · rename_i a b ha
    rw [ha] at hj
    simp [List.intercalate] at hj
    split_ifs at h with hd
    · simp only [Option.some.injEq, Prod.mk.injEq] at h
      obtain ⟨rfl, rfl, rfl⟩ := h
      subst hd
      exact Or.inr (Or.inr (Or.inl ⟨by rw [← hj]; rfl, rfl, rfl⟩))
    · simp only [Option.some.injEq, Prod.mk.injEq] at h
      obtain ⟨rfl, rfl, rfl⟩ := h
      exact Or.inr (Or.inl ⟨hj.symm, rfl, hd⟩)
  · rename_i a b c ha
    rw [ha] at hj
    simp [List.intercalate] at hj
    simp only [Option.some.injEq, Prod.mk.injEq] at h
    obtain ⟨rfl, rfl, rfl⟩ := h
    exact Or.inr (Or.inr (Or.inr (by simp [← hj])))
  · cases h

theorem install_cases (env : Env) (cls : Cls) (lib : Lib) (d : List Char) (s : Backend) :
    (env.attr lib d = true ∧ install env cls lib d s = (⟨cls, lib, d⟩, .ok ())) ∨
    (env.attr lib d = false ∧ install env cls lib d s = ({ s with cls := cls }, .error "AttributeError")) := by
  unfold install
  cases env.attr lib d <;> simp

/-- Everything `set_backend` can do: raise and leave the object alone; install the request; set only
the class because the precision does not exist; or select TiledArray, keeping the old precision. -/
def Outcome (env : Env) (name : List Char) (s : Backend) (r : Backend × Except String Unit) : Prop :=
  (∃ e, r = (s, .error e)) ∨
  (∃ cls lib d, Request name cls lib d ∧ env.attr lib d = true ∧ r = (⟨cls, lib, d⟩, .ok ())) ∨
  (∃ cls lib d, Request name cls lib d ∧ env.attr lib d = false ∧
    r = ({ s with cls := cls }, .error "AttributeError")) ∨
  (r = ({ s with cls := .tiledArray }, .ok ()) ∧ "TiledArray".toList <+: name ∧ env.tiledArray = true)

theorem setBackend_cases (env : Env) (name : List Char) (s : Backend) :
    Outcome env name s (setBackend env name s) := by
  have inst : ∀ cls lib d, Request name cls lib d →
      setBackend env name s = install env cls lib d s → Outcome env name s (setBackend env name s) := by
    intro cls lib d hr he
    rcases install_cases env cls lib d s with ⟨ha, h⟩ | ⟨ha, h⟩
    · exact Or.inr (Or.inl ⟨cls, lib, d, hr, ha, he.trans h⟩)
    · exact Or.inr (Or.inr (Or.inl ⟨cls, lib, d, hr, ha, he.trans h⟩))
  by_cases h1 : "torch".toList <+: name ∧ env.torch = false
  · exact Or.inl ⟨_, by rw [setBackend, if_pos h1]⟩
  by_cases h2 : "torch.cuda".toList <+: name ∧ env.cuda = false
  · exact Or.inl ⟨_, by rw [setBackend, if_neg h1, if_pos h2]⟩
  by_cases h3 : "TiledArray".toList <+: name ∧ env.tiledArray = false
  · exact Or.inl ⟨_, by rw [setBackend, if_neg h1, if_neg h2, if_pos h3]⟩
  cases hp : parseName name with
  | none => exact Or.inl ⟨_, by rw [setBackend, if_neg h1, if_neg h2, if_neg h3, hp]⟩
  | some t =>
    obtain ⟨n, dev, d⟩ := t
    have hs : setBackend env name s = select env n dev d s := by
      rw [setBackend, if_neg h1, if_neg h2, if_neg h3, hp]
    have hq := parse_eq hp
    rw [select] at hs
    by_cases hn : n = "numpy".toList
    · rw [if_pos hn] at hs
      by_cases hd : dev = "cpu".toList
      · rw [if_pos hd] at hs
        refine inst _ _ _ ?_ hs
        subst hn hd
        rcases hq with ⟨rfl, -, rfl⟩ | ⟨rfl, -, -⟩ | ⟨-, h, -⟩ | rfl
        · exact .numpy
        · exact .numpyType d
        · exact absurd h (by decide)
        · exact .numpyCpu d
      · exact Or.inl ⟨_, by rw [hs, if_neg hd]⟩
    rw [if_neg hn] at hs
    by_cases hn : n = "cupy".toList
    · exact Or.inl ⟨_, by rw [hs, if_pos hn]⟩
    rw [if_neg hn] at hs
    by_cases hn : n = "torch".toList
    · rw [if_pos hn] at hs
      by_cases hd : dev = "cpu".toList
      · rw [if_pos hd] at hs
        refine inst _ _ _ ?_ hs
        subst hn hd
        rcases hq with ⟨rfl, -, rfl⟩ | ⟨rfl, -, h⟩ | ⟨-, h, -⟩ | rfl
        · exact .torch
        · exact .torchType d h
        · exact absurd h (by decide)
        · exact .torchCpu d
      · rw [if_neg hd] at hs
        by_cases hd : dev = "cuda".toList
        · rw [if_pos hd] at hs
          refine inst _ _ _ ?_ hs
          subst hn hd
          rcases hq with ⟨-, h, -⟩ | ⟨-, h, -⟩ | ⟨rfl, -, rfl⟩ | rfl
          · exact absurd h (by decide)
          · exact absurd h (by decide)
          · exact .torchCuda
          · exact .torchCudaType d
        · exact Or.inl ⟨_, by rw [hs, if_neg hd]⟩
    rw [if_neg hn] at hs
    by_cases hn : n = "TiledArray".toList
    · rw [if_pos hn] at hs
      by_cases hd : dev = "cpu".toList
      · rw [if_pos hd] at hs
        have hpre : "TiledArray".toList <+: name := by
          rw [← hn]
          rcases hq with ⟨rfl, -, -⟩ | ⟨rfl, -, -⟩ | ⟨rfl, -, -⟩ | rfl
          · exact List.prefix_refl _
          · exact List.prefix_append _ _
          · exact List.prefix_append _ _
          · rw [List.append_assoc]
            exact List.prefix_append _ _
        refine Or.inr (Or.inr (Or.inr ⟨hs, hpre, ?_⟩))
        by_contra hta
        exact h3 ⟨hpre, by simpa using hta⟩
      · exact Or.inl ⟨_, by rw [hs, if_neg hd]⟩
    · exact Or.inl ⟨_, by rw [hs, if_neg hn]⟩

/-- C58 partial: for a name that is not TiledArray's and whose precision exists, the call either
installs the named class and precision, or raises and leaves the backend as it was.  Missing:
precisions that do not exist, and TiledArray; both are wrong. -/
theorem all_or_nothing_partial (env : Env) (name : List Char) (s : Backend)
    (hta : ¬ "TiledArray".toList <+: name)
    (hattr : ∀ cls lib d, Request name cls lib d → env.attr lib d = true) :
    (∃ e, setBackend env name s = (s, .error e)) ∨
    ∃ cls lib d, Request name cls lib d ∧ setBackend env name s = (⟨cls, lib, d⟩, .ok ()) := by
  rcases setBackend_cases env name s with h | ⟨cls, lib, d, hr, -, h⟩ | ⟨cls, lib, d, hr, ha, -⟩ | ⟨-, h, -⟩
  · exact Or.inl h
  · exact Or.inr ⟨cls, lib, d, hr, h⟩
  · rw [hattr cls lib d hr] at ha
    cases ha
  · exact absurd h hta

/-- C58: valid requests are never refused: for every name of a known library and device, with a
precision without dots that the library has, and with the library installed, the named class and
precision are installed, whatever was there before. -/
theorem request_succeeds (env : Env) (name : List Char) (s : Backend) (cls : Cls) (lib : Lib)
    (d : List Char) (hr : Request name cls lib d) (hdot : '.' ∉ d) (hc : d ≠ "cuda".toList)
    (hlib : lib = .torch → env.torch = true) (hcuda : cls = .torchCuda → env.cuda = true)
    (hcu : cls = .torch → ¬ "cuda".toList <+: d)
    (hattr : env.attr lib d = true) :
    setBackend env name s = (⟨cls, lib, d⟩, .ok ()) := by
  have hta : ¬ "TiledArray".toList <+: name := by
    cases hr <;> rintro ⟨t, ht⟩ <;> simp at ht
  have two : ∀ n : List Char, '.' ∉ n → (n ++ '.' :: d).splitOn '.' = [n, d] := by
    intro n hn
    have := List.splitOn_intercalate (ls := [n, d]) '.' (by simp [hn, hdot]) (by simp)
    simpa [List.intercalate] using this
  have three : ∀ n m : List Char, '.' ∉ n → '.' ∉ m →
      (n ++ '.' :: m ++ '.' :: d).splitOn '.' = [n, m, d] := by
    intro n m hn hm
    have := List.splitOn_intercalate (ls := [n, m, d]) '.' (by simp [hn, hm, hdot]) (by simp)
    simpa [List.intercalate] using this
  have key : ∀ n dev : List Char, parseName name = some (n, dev, d) →
      select env n dev d s = (⟨cls, lib, d⟩, .ok ()) → ("torch".toList <+: name → lib = .torch) →
      ("torch.cuda".toList <+: name → cls = .torchCuda) →
      setBackend env name s = (⟨cls, lib, d⟩, .ok ()) := by
    intro n dev hp hs h1 h2
    rw [setBackend, if_neg, if_neg, if_neg, hp]
    · exact hs
    · exact fun h => hta h.1
    · rintro ⟨h, h'⟩
      rw [hcuda (h2 h)] at h'
      cases h'
    · rintro ⟨h, h'⟩
      rw [hlib (h1 h)] at h'
      cases h'
  have inst : install env cls lib d s = (⟨cls, lib, d⟩, .ok ()) := by
    rw [install, if_pos hattr]
  have sn : select env "numpy".toList "cpu".toList d s = install env .numpy .numpy d s := by
    rw [select, if_pos rfl, if_pos rfl]
  have st : select env "torch".toList "cpu".toList d s = install env .torch .torch d s := by
    rw [select, if_neg (by decide), if_neg (by decide), if_pos rfl, if_pos rfl]
  have sc : select env "torch".toList "cuda".toList d s = install env .torchCuda .torch d s := by
    rw [select, if_neg (by decide), if_neg (by decide), if_pos rfl, if_neg (by decide), if_pos rfl]
  cases hr with
  | numpy =>
    refine key "numpy".toList "cpu".toList (by decide) (sn.trans inst) ?_ ?_ <;>
      (rintro ⟨t, ht⟩; simp at ht)
  | numpyType =>
    refine key "numpy".toList "cpu".toList ?_ (sn.trans inst) ?_ ?_
    · have := two "numpy".toList (by decide)
      rw [parseName, show "numpy.".toList ++ d = "numpy".toList ++ '.' :: d by simp, this]
      simp only [if_neg hc]
    all_goals (rintro ⟨t, ht⟩; simp at ht)
  | numpyCpu =>
    refine key "numpy".toList "cpu".toList ?_ (sn.trans inst) ?_ ?_
    · have := three "numpy".toList "cpu".toList (by decide) (by decide)
      rw [parseName, show "numpy.cpu.".toList ++ d = "numpy".toList ++ '.' :: "cpu".toList ++ '.' :: d by simp,
        this]
    all_goals (rintro ⟨t, ht⟩; simp at ht)
  | torch =>
    refine key "torch".toList "cpu".toList (by decide) (st.trans inst) (fun _ => rfl) ?_
    rintro ⟨t, ht⟩
    simp at ht
  | torchType =>
    refine key "torch".toList "cpu".toList ?_ (st.trans inst) (fun _ => rfl) ?_
    · have := two "torch".toList (by decide)
      rw [parseName, show "torch.".toList ++ d = "torch".toList ++ '.' :: d by simp, this]
      simp only [if_neg hc]
    · rintro ⟨t, ht⟩
      exact absurd ⟨t, by simpa using ht⟩ (hcu rfl)
  | torchCpu =>
    refine key "torch".toList "cpu".toList ?_ (st.trans inst) (fun _ => rfl) ?_
    · have := three "torch".toList "cpu".toList (by decide) (by decide)
      rw [parseName, show "torch.cpu.".toList ++ d = "torch".toList ++ '.' :: "cpu".toList ++ '.' :: d by simp,
        this]
    · rintro ⟨t, ht⟩
      simp at ht
  | torchCuda =>
    exact key "torch".toList "cuda".toList (by decide) (sc.trans inst) (fun _ => rfl) (fun _ => rfl)
  | torchCudaType =>
    refine key "torch".toList "cuda".toList ?_ (sc.trans inst) (fun _ => rfl) (fun _ => rfl)
    have := three "torch".toList "cuda".toList (by decide) (by decide)
    rw [parseName, show "torch.cuda.".toList ++ d = "torch".toList ++ '.' :: "cuda".toList ++ '.' :: d by simp,
      this]

/-- C58 partial: after any history of such calls the backend is the one of the last call that did
not raise, or the initial one. -/
theorem history_partial (env : Env) (s : Backend) (names : List (List Char))
    (hta : ∀ name ∈ names, ¬ "TiledArray".toList <+: name)
    (hattr : ∀ name ∈ names, ∀ cls lib d, Request name cls lib d → env.attr lib d = true) :
    let final := names.foldl (fun s name => (setBackend env name s).1) s
    final = s ∨ ∃ name ∈ names, Request name final.cls final.float.1 final.float.2 := by
  induction names using List.reverseRecOn with
  | nil => exact Or.inl rfl
  | append_singleton l name ih =>
    intro final
    have ih := ih (fun x hx => hta x (by simp [hx])) (fun x hx => hattr x (by simp [hx]))
    simp only [final, List.foldl_append, List.foldl_cons, List.foldl_nil]
    rcases all_or_nothing_partial env name (l.foldl (fun s name => (setBackend env name s).1) s)
      (hta name (by simp)) (hattr name (by simp)) with ⟨e, h⟩ | ⟨cls, lib, d, hr, h⟩
    · rw [h]
      rcases ih with ih | ⟨x, hx, ih⟩
      · exact Or.inl ih
      · exact Or.inr ⟨x, by simp [hx], ih⟩
    · rw [h]
      exact Or.inr ⟨name, by simp, hr⟩

/-- A documented name is accepted: single precision torch, where torch has it. -/
example : setBackend ⟨true, false, false, fun _ d => d == "float32".toList⟩ "torch.float32".toList
    ⟨.numpy, .numpy, "float64".toList⟩ = (⟨.torch, .torch, "float32".toList⟩, .ok ()) := by
  decide

/-- C58 fails: for every previous backend, a numpy precision that does not exist raises but has
already switched the class. -/
theorem half_switch_fails (env : Env) (s : Backend) (d : List Char) (hdot : '.' ∉ d)
    (hc : d ≠ "cuda".toList) (hd : env.attr .numpy d = false) :
    setBackend env ("numpy.".toList ++ d) s = ({ s with cls := .numpy }, .error "AttributeError") := by
  have hp : parseName ("numpy.".toList ++ d) = some ("numpy".toList, "cpu".toList, d) := by
    have := List.splitOn_intercalate (ls := ["numpy".toList, d]) '.'
      (by simp [hdot]) (by simp)
    have e : ['.'].intercalate ["numpy".toList, d] = "numpy.".toList ++ d := by
      simp [List.intercalate]
    rw [e] at this
    rw [parseName, this]
    simp only [if_neg hc]
  have h1 : ¬ "torch".toList <+: "numpy.".toList ++ d := by
    rintro ⟨t, ht⟩
    simp at ht
  have h2 : ¬ "torch.cuda".toList <+: "numpy.".toList ++ d := by
    rintro ⟨t, ht⟩
    simp at ht
  have h3 : ¬ "TiledArray".toList <+: "numpy.".toList ++ d := by
    rintro ⟨t, ht⟩
    simp at ht
  rw [setBackend, if_neg (fun h => h1 h.1), if_neg (fun h => h2 h.1), if_neg (fun h => h3 h.1), hp]
  simp only [select, if_true, install, hd, Bool.false_eq_true, if_false]

/-- C58 fails: an existing torch backend becomes a numpy backend with a torch precision. -/
example : setBackend ⟨true, false, false, fun _ d => d == "float32".toList⟩ "numpy.flaot32".toList
    ⟨.torch, .torch, "float32".toList⟩ = (⟨.numpy, .torch, "float32".toList⟩, .error "AttributeError") := by
  decide

/-- C58 fails: TiledArray never installs a precision: the one of the previous backend stays. -/
theorem tiledArray_fails (env : Env) (s : Backend) (h : env.tiledArray = true) :
    setBackend env "TiledArray".toList s = (⟨.tiledArray, s.float⟩, .ok ()) := by
  have h1 : ¬ "torch".toList <+: "TiledArray".toList := by decide
  have h2 : ¬ "torch.cuda".toList <+: "TiledArray".toList := by decide
  have hp : parseName "TiledArray".toList = some ("TiledArray".toList, "cpu".toList, "float64".toList) := by
    decide
  rw [setBackend, if_neg (fun h => h1 h.1), if_neg (fun h => h2 h.1), if_neg (by simp [h]), hp]
  simp [select]

/-! ## C59: verbosity -/

/-- C59 partial: the message functions that work are monotone: shown at one verbosity, shown at every
higher one.  Missing: `error` and `debug1` to `debug4`, which always raise. -/
theorem verbosity_partial (rank : ℕ) (v v' : ℤ) (k : Kind)
    (hk : k ∈ [Kind.log, .warn, .info, .note, .debug]) (hv : v ≤ v') (b : Bool)
    (h : emit rank v k = .ok b) : ∃ b', emit rank v' k = .ok b' ∧ (b = true → b' = true) := by
  simp only [List.mem_cons, List.not_mem_nil, or_false] at hk
  rcases hk with rfl | rfl | rfl | rfl | rfl <;>
    (simp [emit, Kind.threshold, levelName] at h ⊢; subst h; simp; omega)

/-- C59: exactly when a message is shown: on rank 0 only, a warning from verbosity 2, a notice from 3,
information from 4, debugging from 5, and plain output from 1. -/
theorem shown_iff (rank : ℕ) (v : ℤ) :
    (emit rank v .log = .ok true ↔ rank = 0 ∧ 1 ≤ v) ∧ (emit rank v .warn = .ok true ↔ rank = 0 ∧ 2 ≤ v) ∧
    (emit rank v .note = .ok true ↔ rank = 0 ∧ 3 ≤ v) ∧ (emit rank v .info = .ok true ↔ rank = 0 ∧ 4 ≤ v) ∧
    (emit rank v .debug = .ok true ↔ rank = 0 ∧ 5 ≤ v) := by
  refine ⟨?_, ?_, ?_, ?_, ?_⟩ <;> (simp [emit, Kind.threshold, levelName]; try omega)

/-- C59: more specific kinds need more verbosity: whatever shows `debug` shows `info`, and so on down
to `log`. -/
theorem kinds_ordered (rank : ℕ) (v : ℤ) (i j : ℕ) (hij : i ≤ j) (hj : j < 5)
    (h : emit rank v ([Kind.log, .warn, .note, .info, .debug].getD j .log) = .ok true) :
    emit rank v ([Kind.log, .warn, .note, .info, .debug].getD i .log) = .ok true := by
  interval_cases j <;> interval_cases i <;>
    (simp [emit, Kind.threshold, levelName] at h ⊢; omega)

/-- A warning is shown on rank 0 at the usual verbosity 3. -/
example : emit 0 3 .warn = .ok true := by decide

/-- C59 fails: issuing an error, or a message of the four finest kinds, raises at every verbosity. -/
theorem error_raises_fails (rank : ℕ) (v : ℤ) (k : Kind)
    (hk : k ∈ [Kind.error, .debug1, .debug2, .debug3, .debug4]) : emit rank v k = .error "NameError" := by
  simp only [List.mem_cons, List.not_mem_nil, or_false] at hk
  rcases hk with rfl | rfl | rfl | rfl | rfl <;> rfl

/-- C59 for the class: messages are monotone in the level number, for every pair of known levels. -/
theorem class_monotone (v v' l : String) (n n' : ℕ) (hv : classLevel v = some n)
    (hv' : classLevel v' = some n') (h : n ≤ n') (hs : classEmit v l = .ok true) :
    classEmit v' l = .ok true := by
  unfold classEmit at hs ⊢
  rw [hv] at hs
  rw [hv']
  cases hl : classLevel l with
  | none => simp [hl] at hs
  | some m =>
    simp only [hl, Except.ok.injEq, decide_eq_true_eq] at hs ⊢
    omega

/-- C59 for the class: at every known level its own messages are shown, and two different levels
never show each other's messages both ways. -/
theorem class_own_level (v l : String) (n : ℕ) (hv : classLevel v = some n) :
    classEmit v v = .ok true ∧
    (classEmit v l = .ok true → classEmit l v = .ok true → classLevel l = some n) := by
  refine ⟨by simp [classEmit, hv], fun h1 h2 => ?_⟩
  unfold classEmit at h1 h2
  rw [hv] at h1 h2
  cases hl : classLevel l with
  | none => simp [hl] at h1
  | some m =>
    simp only [hl, Except.ok.injEq, decide_eq_true_eq] at h1 h2
    congr 1
    omega

/-- C59 fails for the class: errors are not shown at the default verbosity `"INFO"` although
information messages are. -/
theorem class_error_hidden_fails :
    classEmit "INFO" "ERROR" = .ok false ∧ classEmit "INFO" "INFO" = .ok true := by
  decide

/-! ## C62: electron counts -/

/-- C62: the counts are returned exactly when they exist, and are then the right ones. -/
theorem electron_counts (nelec spin : ℤ) :
    (∀ na nb, electronCounts nelec spin = .ok (na, nb) →
      na + nb = nelec ∧ na - nb = spin ∧ 0 ≤ na ∧ 0 ≤ nb) ∧
    ((∃ na nb : ℤ, 0 ≤ na ∧ 0 ≤ nb ∧ na + nb = nelec ∧ na - nb = spin) →
      ∃ r, electronCounts nelec spin = .ok r) := by
  have hd : (nelec + spin).fdiv 2 = (nelec + spin) / 2 := Int.fdiv_eq_ediv_of_nonneg _ (by norm_num)
  simp only [electronCounts, hd]
  constructor
  · intro na nb h
    split_ifs at h with h1 h2
    simp only [Except.ok.injEq, Prod.mk.injEq] at h
    omega
  · rintro ⟨na, nb, h1, h2, h3, h4⟩
    have e : (nelec + spin) / 2 = na := by omega
    rw [e, if_neg (by push Not; omega), if_neg (by push Not; omega)]
    exact ⟨_, rfl⟩

/-- Five electrons with one unpaired, five with an impossible spin, and too much spin. -/
example : electronCounts 5 1 = .ok (3, 2) ∧ electronCounts 5 2 = .error "RuntimeError" ∧
    electronCounts 1 3 = .error "AssertionError" := by
  decide

/-! ## C63: Davidson -/

/-- C63 partial: the preconditioner divides by a number of size at least `10⁻⁸`, so the result is
bounded by `10⁸` times the residual; away from small denominators it is the exact quotient.
Missing: the solver itself. -/
theorem precond_partial (levelShift diag e dx : ℝ) :
    |precond levelShift diag e dx| ≤ 1e8 * |dx| ∧
    (1e-8 ≤ |diag - e + levelShift| → precond levelShift diag e dx * (diag - e + levelShift) = dx) := by
  have hd : diag - (e - levelShift) = diag - e + levelShift := by ring
  simp only [precond, hd]
  constructor
  · split_ifs with h
    · rw [abs_div]
      norm_num
      linarith
    · push Not at h
      rw [abs_div, div_le_iff₀ (by linarith [show (0 : ℝ) < 1e-8 by norm_num])]
      have : 1e8 * |dx| * 1e-8 ≤ 1e8 * |dx| * |diag - e + levelShift| :=
        mul_le_mul_of_nonneg_left h (by positivity)
      have e1 : (1e8 : ℝ) * |dx| * 1e-8 = |dx| := by norm_num; ring
      linarith
  · intro h
    rw [if_neg (not_lt.2 h), div_mul_cancel₀]
    intro h0
    rw [h0] at h
    norm_num at h

/-- C63 fails: the entry point raises for every input, because the solver it calls is redefined as an
empty function further down the module. -/
theorem davidson_fails {I R : Type*} (real : I → R) (i : I) : davidson real i = .error "TypeError" := by
  simp [davidson, lookupLast, davidsonDefs]

/-! ## C64: configuration -/

variable {V : Type*}

/-- The value last written to a key, counting an update only where the key had been added. -/
def lastWritten (key : String) : List (Op V) → Option (Option V)
  | [] => none
  | .add k v :: earlier => if k = key then some v else lastWritten key earlier
  | .update k v :: earlier =>
    if k = key ∧ (lastWritten key earlier).isSome then some v else lastWritten key earlier

/-- The value an operation writes. -/
def Op.val : Op V → Option V
  | .add _ v => v
  | .update _ v => v

/-- The key an operation writes. -/
def Op.key : Op V → String
  | .add k _ => k
  | .update k _ => k

/-- C64 partial: after any history in which only values other than `None` are stored, an option reads
as the value last written to it, and a key never added raises `KeyError`.  Missing: options whose
value is `None`. -/
theorem config_partial (ops : List (Op V)) (h : ∀ op ∈ ops, op.val.isSome) (key : String) :
    getOption (runOps ops) key =
      match lastWritten key ops.reverse with
      | some (some v) => .ok v
      | _ => .error "KeyError" := by
  have main : runOps ops key = lastWritten key ops.reverse ∧
      (∀ v, runOps ops key = some v → v.isSome) := by
    induction ops using List.reverseRecOn with
    | nil => simp [runOps, lastWritten, Options.empty]
    | append_singleton l op ih =>
      obtain ⟨ih1, ih2⟩ := ih fun x hx => h x (by simp [hx])
      have hop := h op (by simp)
      have hr : runOps (l ++ [op]) = (step (runOps l) op).1 := by simp [runOps]
      rw [hr]
      cases op with
      | add k v =>
        simp only [List.reverse_append, List.reverse_singleton, List.singleton_append, lastWritten,
          step, Options.set]
        by_cases hk : k = key
        · subst hk
          simpa [Op.val] using hop
        · simp [hk, Ne.symm hk, ih1]
          simpa [ih1] using ih2
      | update k v =>
        simp only [List.reverse_append, List.reverse_singleton, List.singleton_append, lastWritten, step]
        by_cases hk : k = key
        · subst hk
          cases ho : runOps l k with
          | none =>
            rw [ho] at ih1
            simp [← ih1, ho]
          | some w =>
            have hw := ih2 w ho
            obtain ⟨w', rfl⟩ := Option.isSome_iff_exists.1 hw
            rw [ho] at ih1
            simp only [← ih1]
            simpa [Options.set, Op.val] using hop
        · cases hj : (runOps l k).join with
          | none => simpa [hk, ih1] using ih2
          | some w => simpa [Options.set, hk, Ne.symm hk, ih1] using ih2
  unfold getOption
  rw [← main.1]
  cases ho : runOps ops key with
  | none => rfl
  | some v =>
    have := main.2 v ho
    obtain ⟨w, rfl⟩ := Option.isSome_iff_exists.1 this
    rfl

/-- C64: no operation changes the option of another key, after any history. -/
theorem config_others (o : Options V) (op : Op V) (key : String) (h : op.key ≠ key) :
    getOption (step o op).1 key = getOption o key := by
  cases op with
  | add k v => simp [getOption, step, Options.set, Ne.symm (show k ≠ key from h)]
  | update k v =>
    simp only [step]
    split <;> simp [getOption, Options.set, Ne.symm (show k ≠ key from h)]

/-- C64 fails: an option stored as `None` is reported as missing, and can then not be updated either,
whatever happened before. -/
theorem config_none_fails (ops : List (Op V)) (key : String) (v : V) :
    getOption (runOps (ops ++ [.add key none])) key = .error "KeyError" ∧
    (step (runOps (ops ++ [.add key none])) (.update key (some v))).2 = .error "KeyError" := by
  have h : runOps (ops ++ [.add key none]) key = some none := by
    simp [runOps, step, Options.set]
  simp [getOption, step, h]

/-- An option added, updated and read while another is added in between. -/
example : getOption (runOps [.add "a" (some 1), .add "b" (some 2), .update "a" (some 3)]) "a" = .ok 3 := by
  rw [config_partial _ (by simp [Op.val])]
  simp [lastWritten]

end OpenMS.Support
