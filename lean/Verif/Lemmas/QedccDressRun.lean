/-
The transformed inputs are the result of the program.
-/
import Verif.Lemmas.QedccDress

set_option linter.unusedSectionVars false

namespace OpenMS.Qedcc

open Einsum

/-- Blocks of the arrays. -/
def dressOk (r : Nat) (ks : List Kind) : Bool :=
  match r with
  | 0 => blocks2.contains ks
  | 1 => blocks4.contains ks
  | 2 => blocks3.contains ks
  | 13 => ks == [.mode]
  | 5 => ks == [.vir, .occ]
  | r => r == 4 || (5 < r && r < 13)

variable {R O V X : Type*} [CommRing R] [Algebra ℚ R] [Fintype O] [Fintype V] [Fintype X]

theorem kind_orb {k : Kind} {d : Idx O V X} (hk : k ≠ .mode) (h : d.kind? = some k) :
    ∃ p : O ⊕ V, k = knd p ∧ d = pos p := by
  cases d with
  | none => simp [Idx.kind?] at h
  | o i => exact ⟨.inl i, by simpa [Idx.kind?, knd] using h.symm, rfl⟩
  | v a => exact ⟨.inr a, by simpa [Idx.kind?, knd] using h.symm, rfl⟩
  | x m => simp [Idx.kind?] at h; exact absurd h.symm hk

theorem kind_mode {d : Idx O V X} (h : d.kind? = some .mode) : ∃ m : X, d = .x m := by
  cases d <;> simp [Idx.kind?] at h ⊢

theorem kinds2 {ks : List Kind} {ds : List (Idx O V X)} (h : blocks2.contains ks = true)
    (hd : ds.map Idx.kind? = ks.map some) :
    ∃ p q : O ⊕ V, ks = [knd p, knd q] ∧ ds = [pos p, pos q] := by
  have h1 : ∃ k l, ks = [k, l] ∧ k ≠ .mode ∧ l ≠ .mode := by
    simp [blocks2, orbs] at h
    rcases h with rfl | rfl | rfl | rfl <;> exact ⟨_, _, rfl, by decide, by decide⟩
  obtain ⟨k, l, rfl, hk, hl⟩ := h1
  simp only [List.map_cons, List.map_nil, List.map_eq_cons_iff, List.map_eq_nil_iff] at hd
  obtain ⟨x, _, rfl, hx, y, _, rfl, hy, rfl⟩ := hd
  obtain ⟨p, rfl, rfl⟩ := kind_orb hk hx
  obtain ⟨q, rfl, rfl⟩ := kind_orb hl hy
  exact ⟨p, q, rfl, rfl⟩

theorem kinds3 {ks : List Kind} {ds : List (Idx O V X)} (h : blocks3.contains ks = true)
    (hd : ds.map Idx.kind? = ks.map some) :
    ∃ (m : X) (p q : O ⊕ V), ks = [.mode, knd p, knd q] ∧ ds = [.x m, pos p, pos q] := by
  have h1 : ∃ ls, ks = .mode :: ls ∧ blocks2.contains ls = true := by
    simp only [blocks3, List.contains_eq_mem, List.mem_map, decide_eq_true_eq] at h ⊢
    obtain ⟨ls, hl, rfl⟩ := h
    exact ⟨ls, rfl, hl⟩
  obtain ⟨ls, rfl, hl⟩ := h1
  rw [List.map_cons, List.map_eq_cons_iff] at hd
  obtain ⟨x, ds, rfl, hx, hd⟩ := hd
  obtain ⟨m, rfl⟩ := kind_mode hx
  obtain ⟨p, q, rfl, rfl⟩ := kinds2 hl hd
  exact ⟨m, p, q, rfl, rfl⟩

theorem kinds4 {ks : List Kind} {ds : List (Idx O V X)} (h : blocks4.contains ks = true)
    (hd : ds.map Idx.kind? = ks.map some) :
    ∃ p q r s : O ⊕ V, ks = [knd p, knd q, knd r, knd s] ∧ ds = [pos p, pos q, pos r, pos s] := by
  have h1 : ∃ k l ls, ks = k :: l :: ls ∧ k ≠ .mode ∧ l ≠ .mode ∧ blocks2.contains ls = true := by
    simp only [blocks4, List.contains_eq_mem, List.mem_map, List.mem_flatMap, decide_eq_true_eq]
      at h ⊢
    obtain ⟨a, ha, ls, hl, rfl⟩ := h
    simp [blocks2, orbs] at ha
    rcases ha with rfl | rfl | rfl | rfl <;> exact ⟨_, _, _, rfl, by decide, by decide, hl⟩
  obtain ⟨k, l, ls, rfl, hk, hl, h2⟩ := h1
  simp only [List.map_cons, List.map_eq_cons_iff] at hd
  obtain ⟨x, _, rfl, hx, y, _, rfl, hy, hd⟩ := hd
  obtain ⟨p, rfl, rfl⟩ := kind_orb hk hx
  obtain ⟨q, rfl, rfl⟩ := kind_orb hl hy
  obtain ⟨r, s, rfl, rfl⟩ := kinds2 h2 hd
  exact ⟨p, q, r, s, rfl, rfl⟩

/-- The inputs. -/
def inputs : List Nat := [0, 1, 2, 4, 5, 6, 7, 8, 9, 10, 11, 12, 13]

/-- Names written by the stages after the integrals. -/
def laterI : List (List Def) := [blocks2.map fieldDef,
  blocks2.map (stageDef 1 false (nm 160) (nm 170)),
  blocks2.map (stageDef 0 true (nm 170) (nm 20)),
  blocks3.map (stageDef 2 false (fun _ => 2) (nm 180)),
  blocks3.map (stageDef 1 true (nm 180) (nm 24)),
  [modeDef, ⟨49, []⟩]]

/-- Names written by the stages after the Fock matrix. -/
def laterF : List (List Def) := [blocks3.map (stageDef 2 false (fun _ => 2) (nm 180)),
  blocks3.map (stageDef 1 true (nm 180) (nm 24)),
  [modeDef, ⟨49, []⟩]]

/-- The names of the transformed blocks are not written again. -/
theorem namesI : ∀ ks ∈ blocks4, ∀ p ∈ laterI.map (List.map Def.name), nm 32 ks ∉ p := by
  decide +kernel

theorem namesF : ∀ ks ∈ blocks2, ∀ p ∈ laterF.map (List.map Def.name), nm 20 ks ∉ p := by
  decide +kernel

theorem namesg : ∀ ks ∈ blocks3, nm 24 ks ∉ [modeDef, ⟨49, []⟩].map Def.name := by
  decide +kernel

/-- Frequencies and amplitudes other than singles are unchanged. -/
theorem ten_dress (t : Inputs R O V X) (ds : List (Idx O V X)) :
    ∀ k ∈ [4, 6, 7, 8, 9, 10, 11, 12], t.dress.ten k ds = t.ten k ds := by
  intro k hk
  simp only [List.mem_cons, List.not_mem_nil, or_false] at hk
  rcases hk with rfl | rfl | rfl | rfl | rfl | rfl | rfl | rfl <;>
    rcases ds with _ | ⟨a, _ | ⟨b, _ | ⟨c, _ | ⟨d, _ | ⟨e, _ | ⟨f, _ | ⟨g, ds⟩⟩⟩⟩⟩⟩⟩ <;> rfl

/-- The transformed inputs are the result of the program. -/
theorem dress_blocks (t : Inputs R O V X) :
    Blocks dressOk dressBl t.dress.ten (run dressP t.ten) := by
  obtain ⟨p1, p2, p3, p4, p5, p6, p7, p8, p9⟩ := parallel_stages
  have hT0 : ∀ a i, t.ten 5 [.v a, .o i] = t.T1 a i := fun _ _ => rfl
  have hI0 : ∀ p q r s, t.ten 1 [pos p, pos q, pos r, pos s] = t.I p q r s := fun p q r s => by
    rcases p with p | p <;> rcases q with q | q <;> rcases r with r | r <;> rcases s with s | s <;>
      rfl
  have hF0 : ∀ p q, t.ten 0 [pos p, pos q] = t.F p q := fun p q => by
    rcases p with p | p <;> rcases q with q | q <;> rfl
  have hg0 : ∀ m p q, t.ten 2 [.x m, pos p, pos q] = t.g m p q := fun m p q => by
    rcases p with p | p <;> rcases q with q | q <;> rfl
  have hG0 : ∀ m, t.ten 13 [.x m] = t.G m := fun _ => rfl
  unfold dressP
  repeat rw [run_append]
  have e1 : ∀ p q r s, run (blocks4.map (stageDef 3 false (fun _ => 1) (nm 100))) t.ten
      (nm 100 [knd p, knd q, knd r, knd s]) [pos p, pos q, pos r, pos s] = dressR t.T1 (fun s => t.I p q r s) s := fun p q r s =>
    (congrFun (run_parallel p1 (List.mem_map_of_mem (mem_blocks4 p q r s)) t.ten) _).trans (stage4_3 (src := fun _ => 1) hT0 hI0 p q r s)
  have f1 : ∀ k ∈ inputs, run (blocks4.map (stageDef 3 false (fun _ => 1) (nm 100))) t.ten k = t.ten k := fun k hk =>
    (run_other (by revert k; decide +kernel) _).trans (rfl)
  have T1 : ∀ a i, run (blocks4.map (stageDef 3 false (fun _ => 1) (nm 100))) t.ten 5 [.v a, .o i] = t.T1 a i := fun a i => by
    rw [f1 5 (by decide)]
    rfl
  generalize run (blocks4.map (stageDef 3 false (fun _ => 1) (nm 100))) t.ten = s1 at e1 f1 T1 ⊢
  have e2 : ∀ p q r s, run (blocks4.map (stageDef 2 false (nm 100) (nm 120))) s1
      (nm 120 [knd p, knd q, knd r, knd s]) [pos p, pos q, pos r, pos s] = dressR t.T1 (fun r => dressR t.T1 (fun s => t.I p q r s) s) r := fun p q r s =>
    (congrFun (run_parallel p2 (List.mem_map_of_mem (mem_blocks4 p q r s)) s1) _).trans (stage4_2 T1 e1 p q r s)
  have f2 : ∀ k ∈ inputs, run (blocks4.map (stageDef 2 false (nm 100) (nm 120))) s1 k = t.ten k := fun k hk =>
    (run_other (by revert k; decide +kernel) _).trans (f1 k hk)
  have T2 : ∀ a i, run (blocks4.map (stageDef 2 false (nm 100) (nm 120))) s1 5 [.v a, .o i] = t.T1 a i := fun a i => by
    rw [f2 5 (by decide)]
    rfl
  generalize run (blocks4.map (stageDef 2 false (nm 100) (nm 120))) s1 = s2 at e2 f2 T2 ⊢
  have e3 : ∀ p q r s, run (blocks4.map (stageDef 1 true (nm 120) (nm 140))) s2
      (nm 140 [knd p, knd q, knd r, knd s]) [pos p, pos q, pos r, pos s] = dressL t.T1 (fun q => dressR t.T1 (fun r => dressR t.T1 (fun s => t.I p q r s) s) r) q := fun p q r s =>
    (congrFun (run_parallel p3 (List.mem_map_of_mem (mem_blocks4 p q r s)) s2) _).trans (stage4_1 T2 e2 p q r s)
  have f3 : ∀ k ∈ inputs, run (blocks4.map (stageDef 1 true (nm 120) (nm 140))) s2 k = t.ten k := fun k hk =>
    (run_other (by revert k; decide +kernel) _).trans (f2 k hk)
  have T3 : ∀ a i, run (blocks4.map (stageDef 1 true (nm 120) (nm 140))) s2 5 [.v a, .o i] = t.T1 a i := fun a i => by
    rw [f3 5 (by decide)]
    rfl
  generalize run (blocks4.map (stageDef 1 true (nm 120) (nm 140))) s2 = s3 at e3 f3 T3 ⊢
  have e4 : ∀ p q r s, run (blocks4.map (stageDef 0 true (nm 140) (nm 32))) s3
      (nm 32 [knd p, knd q, knd r, knd s]) [pos p, pos q, pos r, pos s] = t.dress.I p q r s := fun p q r s =>
    (congrFun (run_parallel p4 (List.mem_map_of_mem (mem_blocks4 p q r s)) s3) _).trans (stage4_0 T3 e3 p q r s)
  have f4 : ∀ k ∈ inputs, run (blocks4.map (stageDef 0 true (nm 140) (nm 32))) s3 k = t.ten k := fun k hk =>
    (run_other (by revert k; decide +kernel) _).trans (f3 k hk)
  have T4 : ∀ a i, run (blocks4.map (stageDef 0 true (nm 140) (nm 32))) s3 5 [.v a, .o i] = t.T1 a i := fun a i => by
    rw [f4 5 (by decide)]
    rfl
  generalize run (blocks4.map (stageDef 0 true (nm 140) (nm 32))) s3 = s4 at e4 f4 T4 ⊢
  have e5 : ∀ p q, run (blocks2.map fieldDef) s4
      (nm 160 [knd p, knd q]) [pos p, pos q] = t.F p q + ∑ k, ∑ c, t.T1 c k * t.I p (.inl k) q (.inr c) := fun p q =>
    (congrFun (run_parallel p5 (List.mem_map_of_mem (mem_blocks2 p q)) s4) _).trans (field_eval T4 (fun p q => (congrFun (f4 0 (by decide)) _).trans (hF0 p q))
      (fun p q r s => (congrFun (f4 1 (by decide)) _).trans (hI0 p q r s)) p q)
  have f5 : ∀ k ∈ inputs, run (blocks2.map fieldDef) s4 k = t.ten k := fun k hk =>
    (run_other (by revert k; decide +kernel) _).trans (f4 k hk)
  have T5 : ∀ a i, run (blocks2.map fieldDef) s4 5 [.v a, .o i] = t.T1 a i := fun a i => by
    rw [f5 5 (by decide)]
    rfl
  have i5 : ∀ p q r s, run (blocks2.map fieldDef) s4 (nm 32 [knd p, knd q, knd r, knd s]) [pos p, pos q, pos r, pos s] = t.dress.I p q r s :=
    fun p q r s => (congrFun (run_other (namesI _ (mem_blocks4 p q r s) _ (by decide)) _) _).trans (e4 p q r s)
  generalize run (blocks2.map fieldDef) s4 = s5 at e5 f5 T5 i5 ⊢
  have e6 : ∀ p q, run (blocks2.map (stageDef 1 false (nm 160) (nm 170))) s5
      (nm 170 [knd p, knd q]) [pos p, pos q] = dressR t.T1 (fun q => t.F p q + ∑ k, ∑ c, t.T1 c k * t.I p (.inl k) q (.inr c)) q := fun p q =>
    (congrFun (run_parallel p6 (List.mem_map_of_mem (mem_blocks2 p q)) s5) _).trans (stage2_1 T5 e5 p q)
  have f6 : ∀ k ∈ inputs, run (blocks2.map (stageDef 1 false (nm 160) (nm 170))) s5 k = t.ten k := fun k hk =>
    (run_other (by revert k; decide +kernel) _).trans (f5 k hk)
  have T6 : ∀ a i, run (blocks2.map (stageDef 1 false (nm 160) (nm 170))) s5 5 [.v a, .o i] = t.T1 a i := fun a i => by
    rw [f6 5 (by decide)]
    rfl
  have i6 : ∀ p q r s, run (blocks2.map (stageDef 1 false (nm 160) (nm 170))) s5 (nm 32 [knd p, knd q, knd r, knd s]) [pos p, pos q, pos r, pos s] = t.dress.I p q r s :=
    fun p q r s => (congrFun (run_other (namesI _ (mem_blocks4 p q r s) _ (by decide)) _) _).trans (i5 p q r s)
  generalize run (blocks2.map (stageDef 1 false (nm 160) (nm 170))) s5 = s6 at e6 f6 T6 i6 ⊢
  have e7 : ∀ p q, run (blocks2.map (stageDef 0 true (nm 170) (nm 20))) s6
      (nm 20 [knd p, knd q]) [pos p, pos q] = t.dress.F p q := fun p q =>
    (congrFun (run_parallel p7 (List.mem_map_of_mem (mem_blocks2 p q)) s6) _).trans (stage2_0 T6 e6 p q)
  have f7 : ∀ k ∈ inputs, run (blocks2.map (stageDef 0 true (nm 170) (nm 20))) s6 k = t.ten k := fun k hk =>
    (run_other (by revert k; decide +kernel) _).trans (f6 k hk)
  have T7 : ∀ a i, run (blocks2.map (stageDef 0 true (nm 170) (nm 20))) s6 5 [.v a, .o i] = t.T1 a i := fun a i => by
    rw [f7 5 (by decide)]
    rfl
  have i7 : ∀ p q r s, run (blocks2.map (stageDef 0 true (nm 170) (nm 20))) s6 (nm 32 [knd p, knd q, knd r, knd s]) [pos p, pos q, pos r, pos s] = t.dress.I p q r s :=
    fun p q r s => (congrFun (run_other (namesI _ (mem_blocks4 p q r s) _ (by decide)) _) _).trans (i6 p q r s)
  generalize run (blocks2.map (stageDef 0 true (nm 170) (nm 20))) s6 = s7 at e7 f7 T7 i7 ⊢
  have e8 : ∀ m p q, run (blocks3.map (stageDef 2 false (fun _ => 2) (nm 180))) s7
      (nm 180 [.mode, knd p, knd q]) [.x m, pos p, pos q] = dressR t.T1 (fun q => t.g m p q) q := fun m p q =>
    (congrFun (run_parallel p8 (List.mem_map_of_mem (mem_blocks3 p q)) s7) _).trans (stage3_2 (src := fun _ => 2) T7
      (fun m p q => (congrFun (f7 2 (by decide)) _).trans (hg0 m p q)) m p q)
  have f8 : ∀ k ∈ inputs, run (blocks3.map (stageDef 2 false (fun _ => 2) (nm 180))) s7 k = t.ten k := fun k hk =>
    (run_other (by revert k; decide +kernel) _).trans (f7 k hk)
  have T8 : ∀ a i, run (blocks3.map (stageDef 2 false (fun _ => 2) (nm 180))) s7 5 [.v a, .o i] = t.T1 a i := fun a i => by
    rw [f8 5 (by decide)]
    rfl
  have i8 : ∀ p q r s, run (blocks3.map (stageDef 2 false (fun _ => 2) (nm 180))) s7 (nm 32 [knd p, knd q, knd r, knd s]) [pos p, pos q, pos r, pos s] = t.dress.I p q r s :=
    fun p q r s => (congrFun (run_other (namesI _ (mem_blocks4 p q r s) _ (by decide)) _) _).trans (i7 p q r s)
  have j8 : ∀ p q, run (blocks3.map (stageDef 2 false (fun _ => 2) (nm 180))) s7 (nm 20 [knd p, knd q]) [pos p, pos q] = t.dress.F p q :=
    fun p q => (congrFun (run_other (namesF _ (mem_blocks2 p q) _ (by decide)) _) _).trans (e7 p q)
  generalize run (blocks3.map (stageDef 2 false (fun _ => 2) (nm 180))) s7 = s8 at e8 f8 T8 i8 j8 ⊢
  have e9 : ∀ m p q, run (blocks3.map (stageDef 1 true (nm 180) (nm 24))) s8
      (nm 24 [.mode, knd p, knd q]) [.x m, pos p, pos q] = t.dress.g m p q := fun m p q =>
    (congrFun (run_parallel p9 (List.mem_map_of_mem (mem_blocks3 p q)) s8) _).trans (stage3_1 T8 e8 m p q)
  have f9 : ∀ k ∈ inputs, run (blocks3.map (stageDef 1 true (nm 180) (nm 24))) s8 k = t.ten k := fun k hk =>
    (run_other (by revert k; decide +kernel) _).trans (f8 k hk)
  have T9 : ∀ a i, run (blocks3.map (stageDef 1 true (nm 180) (nm 24))) s8 5 [.v a, .o i] = t.T1 a i := fun a i => by
    rw [f9 5 (by decide)]
    rfl
  have i9 : ∀ p q r s, run (blocks3.map (stageDef 1 true (nm 180) (nm 24))) s8 (nm 32 [knd p, knd q, knd r, knd s]) [pos p, pos q, pos r, pos s] = t.dress.I p q r s :=
    fun p q r s => (congrFun (run_other (namesI _ (mem_blocks4 p q r s) _ (by decide)) _) _).trans (i8 p q r s)
  have j9 : ∀ p q, run (blocks3.map (stageDef 1 true (nm 180) (nm 24))) s8 (nm 20 [knd p, knd q]) [pos p, pos q] = t.dress.F p q :=
    fun p q => (congrFun (run_other (namesF _ (mem_blocks2 p q) _ (by decide)) _) _).trans (j8 p q)
  generalize run (blocks3.map (stageDef 1 true (nm 180) (nm 24))) s8 = s9 at e9 f9 T9 i9 j9 ⊢
  have fin : ∀ r ks ds, dressOk r ks = true → ds.map Idx.kind? = ks.map some →
      t.dress.ten r ds = run [modeDef, ⟨49, []⟩] s9 (dressBl r ks) ds := by
    intro r ks ds hk hd
    have unch : ∀ k ∈ inputs, run [modeDef, ⟨49, []⟩] s9 k = t.ten k := fun k hk =>
      (run_other (by revert k; decide +kernel) _).trans (f9 k hk)
    match r, hk with
    | 0, hk =>
      obtain ⟨p, q, rfl, rfl⟩ := kinds2 hk hd
      rw [dressBl, run_other (namesF _ (mem_blocks2 p q) _ (by decide)), j9]
      rcases p with p | p <;> rcases q with q | q <;> rfl
    | 1, hk =>
      obtain ⟨p, q, r, s, rfl, rfl⟩ := kinds4 hk hd
      rw [dressBl, run_other (namesI _ (mem_blocks4 p q r s) _ (by decide)), i9]
      rcases p with p | p <;> rcases q with q | q <;> rcases r with r | r <;>
        rcases s with s | s <;> rfl
    | 2, hk =>
      obtain ⟨m, p, q, rfl, rfl⟩ := kinds3 hk hd
      rw [dressBl, run_other (namesg _ (mem_blocks3 p q)), e9]
      rcases p with p | p <;> rcases q with q | q <;> rfl
    | 5, hk =>
      have hs : ks = [.vir, .occ] := by simpa [dressOk] using hk
      subst hs
      simp only [List.map_cons, List.map_nil, List.map_eq_cons_iff, List.map_eq_nil_iff] at hd
      obtain ⟨x, _, rfl, hx, y, _, rfl, hy, rfl⟩ := hd
      obtain ⟨a, rfl⟩ : ∃ a, x = .v a := by cases x <;> simp [Idx.kind?] at hx ⊢
      obtain ⟨i, rfl⟩ : ∃ i, y = .o i := by cases y <;> simp [Idx.kind?] at hy ⊢
      simp [dressBl, run, Def.run, evalAt, Def.terms, evalTerms, Inputs.ten, Inputs.dress, at1, vir, occ]
    | 13, hk =>
      have hs : ks = [.mode] := by simpa [dressOk] using hk
      subst hs
      simp only [List.map_cons, List.map_nil, List.map_eq_cons_iff, List.map_eq_nil_iff] at hd
      obtain ⟨x, _, rfl, hx, rfl⟩ := hd
      obtain ⟨m, rfl⟩ := kind_mode hx
      have h := mode_eval (ten := s9) T9 (fun m p q => (congrFun (f9 2 (by decide)) _).trans (hg0 m p q))
        (fun m => congrFun (f9 13 (by decide)) [.x m]) m
      have e : run [modeDef, ⟨49, []⟩] s9 (dressBl 13 [.mode]) = evalAt s9 modeDef.terms := by
        funext ds
        simp only [dressBl, run, Def.run]
        rfl
      rw [e, h]
      rfl
    | 4, hk => exact (ten_dress t ds 4 (by decide)).trans (congrFun (unch 4 (by decide)) ds).symm
    | 6, hk => exact (ten_dress t ds 6 (by decide)).trans (congrFun (unch 6 (by decide)) ds).symm
    | 7, hk => exact (ten_dress t ds 7 (by decide)).trans (congrFun (unch 7 (by decide)) ds).symm
    | 8, hk => exact (ten_dress t ds 8 (by decide)).trans (congrFun (unch 8 (by decide)) ds).symm
    | 9, hk => exact (ten_dress t ds 9 (by decide)).trans (congrFun (unch 9 (by decide)) ds).symm
    | 10, hk => exact (ten_dress t ds 10 (by decide)).trans (congrFun (unch 10 (by decide)) ds).symm
    | 11, hk => exact (ten_dress t ds 11 (by decide)).trans (congrFun (unch 11 (by decide)) ds).symm
    | 12, hk => exact (ten_dress t ds 12 (by decide)).trans (congrFun (unch 12 (by decide)) ds).symm
  exact fin

end OpenMS.Qedcc
