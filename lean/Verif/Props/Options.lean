import Mathlib.Data.List.Induction
import Verif.Model.Options
import Mathlib.Tactic.NormNum

/-!
# C30, C78: walker options
-/

namespace OpenMS.Options

theorem set_of_ne (d : Dict) (k k' : String) (v : ℚ) (h : k' ≠ k) : d.set k v k' = d k' := by
  simp [Dict.set, h]

theorem update_other (kv : List (String × ℚ)) (d : Dict) (k : String)
    (h : ∀ p ∈ kv, p.1 ≠ k) : d.update kv k = d k := by
  unfold Dict.update
  induction kv generalizing d with
  | nil => rfl
  | cons p kv ih =>
    rw [List.foldl_cons, ih _ fun q hq => h q (List.mem_cons_of_mem _ hq),
      set_of_ne _ _ _ _ (h p List.mem_cons_self).symm]

/-- Two dictionaries that agree on a key still agree on it after the same update. -/
theorem update_congr (kv : List (String × ℚ)) (d d' : Dict) (k : String) (h : d k = d' k) :
    d.update kv k = d'.update kv k := by
  unfold Dict.update
  induction kv generalizing d d' with
  | nil => exact h
  | cons p kv ih =>
    rw [List.foldl_cons, List.foldl_cons]
    apply ih
    simp only [Dict.set]
    split_ifs <;> first | rfl | exact h

theorem construct_other (d : Dict) (a : Args) (k : String) (hk : k ≠ "nwalkers")
    (h : ∀ kv, a.walkerOptions = some kv → ∀ p ∈ kv, p.1 ≠ k) : construct d a k = d k := by
  unfold construct
  rcases a with ⟨_ | kv, _ | n⟩
  · rfl
  · exact set_of_ne _ _ _ _ hk
  · exact update_other _ _ _ (h kv rfl)
  · exact (set_of_ne _ _ _ _ hk).trans (update_other _ _ _ (h kv rfl))

/-- Specification: the value a caller asks for under key `k`: the explicit number of walkers, else
the last value given for the key, else the documented default. -/
def requested (a : Args) (k : String) : Option ℚ :=
  if k = "nwalkers" ∧ a.numWalkers ≠ none then a.numWalkers
  else (((a.walkerOptions.getD []).reverse.find? fun p => p.1 = k).map Prod.snd).or
    (if k = "nwalkers" then some 100 else if k = "weight_min" then some (1 / 10)
      else if k = "weight_max" then some 10 else none)

theorem update_value (kv : List (String × ℚ)) (d : Dict) (k : String) :
    d.update kv k = ((kv.reverse.find? fun p => p.1 = k).map Prod.snd).or (d k) := by
  induction kv using List.reverseRecOn with
  | nil => rfl
  | append_singleton kv p ih =>
    have e : d.update (kv ++ [p]) = (d.update kv).set p.1 p.2 := by
      unfold Dict.update; rw [List.foldl_append]; rfl
    rw [e, List.reverse_append]
    by_cases h : p.1 = k
    · simp [Dict.set, h]
    · rw [set_of_ne _ _ _ _ (Ne.symm h), ih]
      simp [h]

/-- **C30 (part)**: a key other than `nwalkers` that no earlier construction passed has, for a
new object, the value the caller asked for, else the documented default; so has `nwalkers` for
objects built with an explicit number.  Missing: keys passed to an earlier object. -/
theorem options_partial (h : List Args) (a : Args) (k : String)
    (hk : k ≠ "nwalkers" ∨ a.numWalkers ≠ none)
    (hist : ∀ b ∈ h, ∀ kv, b.walkerOptions = some kv → ∀ p ∈ kv, p.1 ≠ k) :
    afterHistory (h ++ [a]) k = requested a k := by
  unfold afterHistory
  rw [List.foldl_append, List.foldl_cons, List.foldl_nil]
  by_cases hn : k = "nwalkers"
  · subst hn
    obtain ⟨n, hn⟩ := Option.ne_none_iff_exists'.1 (hk.resolve_left (fun h => h rfl))
    simp [construct, requested, hn, Dict.set]
  · have hfold : ∀ (l : List Args), (∀ b ∈ l, ∀ kv, b.walkerOptions = some kv → ∀ p ∈ kv, p.1 ≠ k) →
        ∀ d : Dict, l.foldl construct d k = d k := by
      intro l
      induction l with
      | nil => intros; rfl
      | cons b l ih =>
        intro hl d
        rw [List.foldl_cons, ih (fun c hc => hl c (List.mem_cons_of_mem _ hc)),
          construct_other d b k hn (hl b List.mem_cons_self)]
    have heq := hfold h hist defaultWalkerOptions
    have hreq : requested a k = (((a.walkerOptions.getD []).reverse.find? fun p => p.1 = k).map
        Prod.snd).or (defaultWalkerOptions k) := by
      simp [requested, defaultWalkerOptions, hn]
    rw [hreq]
    generalize h.foldl construct defaultWalkerOptions = d at heq
    unfold construct
    rcases a with ⟨_ | kv, _ | n⟩
    · exact heq
    · exact (set_of_ne _ _ _ _ hn).trans heq
    · simp only [Option.getD_some, update_value, heq]
    · simp only [Option.getD_some, set_of_ne _ _ _ _ hn, update_value, heq]

example : afterHistory ([⟨none, some 5⟩, ⟨some [("other", 1)], some 7⟩] ++
    [⟨some [("weight_max", 4)], some 3⟩]) "weight_max" = some 4 := by
  rw [options_partial _ _ _ (Or.inl (by decide))]
  · simp [requested]
  · simp

/-- **C30 fails**: an option passed to one object is inherited by every later object built
without options, and a later construction changes the options of an object that exists. -/
theorem options_fails :
    (∃ (a b : Args) (k : String), b.walkerOptions = none ∧
      afterHistory [a, b] k ≠ requested b k) ∧
    (∃ a b : Args, optionsAtEnd [a] 0 "nwalkers" = some 5 ∧
      optionsAtEnd [a, b] 0 "nwalkers" = some 7) := by
  refine ⟨⟨⟨some [("weight_max", 3)], some 5⟩, ⟨none, some 5⟩, "weight_max", rfl, ?_⟩,
    ⟨⟨none, some 5⟩, ⟨none, some 7⟩, ?_, ?_⟩⟩
  · simp [afterHistory, construct, Dict.update, Dict.set, requested]
  · simp [optionsAtEnd, afterHistory, construct, Dict.set]
  · simp [optionsAtEnd, afterHistory, construct, Dict.set]

/-- **C78 fails**: the weight bounds given as walker options never reach the walkers, whatever
the options are, and `nwalkers` given as an option is overridden by the default of
`num_walkers`. -/
theorem weight_bounds_ignored_fails (module : Dict) (kv : List (String × ℚ)) (n : ℚ) :
    walkerParams (construct module ⟨some kv, some n⟩) = (n, 1 / 10, 10) := by
  simp [walkerParams, construct, Dict.set]

/-- **C78 (part)**: the number of walkers given as `num_walkers` is used; with
`num_walkers=None` the option is used. -/
theorem nwalkers_partial (module : Dict) (o : Option (List (String × ℚ))) (n m : ℚ)
    (kv : List (String × ℚ)) (hkv : ∀ p ∈ kv, p.1 ≠ "nwalkers") :
    (walkerParams (construct module ⟨o, some n⟩)).1 = n ∧
      (walkerParams (construct module ⟨some (("nwalkers", m) :: kv), none⟩)).1 = m := by
  constructor
  · cases o <;> simp [walkerParams, construct, Dict.set]
  · have := update_other kv (module.set "nwalkers" m) "nwalkers" hkv
    simp only [walkerParams, construct]
    change ((Dict.update (module.set "nwalkers" m) kv "nwalkers").getD 100) = m
    rw [this]
    simp [Dict.set]

end OpenMS.Options
