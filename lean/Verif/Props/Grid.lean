import Verif.Model.Grid
set_option linter.unusedVariables false
set_option linter.unusedSimpArgs false

namespace PB.GridProps
open PB.Grid

/-- The number of rows that are needed. -/
def Rows (n nc nr : Nat) : Prop := n ≤ nr * nc ∧ ∀ m, n ≤ m * nc → nr ≤ m

theorem rows_iff (n nc : Nat) (h : 0 < nc) : Rows n nc ((n + nc - 1) / nc) := by
  constructor
  · have := Nat.div_add_mod (n + nc - 1) nc
    have := Nat.mod_lt (n + nc - 1) h
    rw [Nat.mul_comm]
    omega
  · intro m hm
    have : (n + nc - 1) / nc < m + 1 := by
      rw [Nat.div_lt_iff_lt_mul h, Nat.add_mul]
      omega
    omega

theorem next (nc i : Nat) (h : 0 < nc) : ((i % nc + 1) % nc = (i + 1) % nc) ∧ ((if (i % nc + 1) % nc = 0 then i / nc + 1 else i / nc) = (i + 1) / nc) := by
  have h1 : (i % nc + 1) % nc = (i + 1) % nc := by simp
  refine ⟨h1, ?_⟩
  have hlt := Nat.mod_lt i h
  have hdm := Nat.div_add_mod i nc
  by_cases hc : i % nc + 1 = nc
  · have : i + 1 = nc * (i / nc + 1) := by rw [Nat.mul_add]; omega
    have hd : (i + 1) / nc = i / nc + 1 := by rw [this, Nat.mul_div_cancel_left _ h]
    rw [hc, Nat.mod_self, if_pos rfl, hd]
  · have h2 : i % nc + 1 < nc := by omega
    rw [Nat.mod_eq_of_lt h2, if_neg (by omega)]
    symm
    rw [Nat.div_eq_iff h]
    constructor
    · have := Nat.mul_comm nc (i / nc); omega
    · have := Nat.mul_comm nc (i / nc); omega

theorem place_spec {L : Type} (nr nc : Nat) (hnc : 0 < nc) (ok : ∀ i, i < nr * nc → current nr nc (i / nc) (i % nc) = some (i / nc, i % nc)) :
    ∀ (ls : List L) (i : Nat), i + ls.length ≤ nr * nc →
      ∃ ps, place nr nc (i / nc) (i % nc) ls = some (ps, (i + ls.length) / nc) ∧ ps.length = ls.length ∧
        ∀ j, ps[j]? = (ls[j]?).map fun l => (((i + j) / nc, (i + j) % nc), l)
  | [], i, _ => ⟨[], by simp [place], rfl, by simp⟩
  | l :: ls, i, h => by
    simp only [List.length_cons] at h
    obtain ⟨ps, h1, h2, h3⟩ := place_spec nr nc hnc ok ls (i + 1) (by omega)
    obtain ⟨n1, n2⟩ := next nc i hnc
    refine ⟨((i / nc, i % nc), l) :: ps, ?_, by simp [h2], ?_⟩
    · simp only [place, ok i (by omega), Option.bind_some, n2]
      rw [n1, h1]
      simp [Nat.add_assoc, Nat.add_comm 1]
    · intro j
      cases j with
      | zero => simp
      | succ j =>
        simp only [List.getElem?_cons_succ, h3]
        rw [show i + 1 + j = i + (j + 1) by omega]

theorem mapM_ok {A B : Type} (f : A → Option B) (g : A → B) : (l : List A) → (∀ a ∈ l, f a = some (g a)) → l.mapM f = some (l.map g)
  | [], _ => rfl
  | a :: l, h => by
    rw [List.mapM_cons, h a (by simp), mapM_ok f g l fun b hb => h b (by simp [hb])]
    rfl

/-- **C250 (partial).** With several columns that are all needed, the plots fill the grid row by row: the plot of the label number `i` is in row `i / nc` and column `i % nc`. The grid has as few rows as possible, and
exactly the cells that are not used are switched off. (Missing: single columns and incomplete single rows, see `C250_column_violated` and `C250_row_violated`.) -/
theorem C250_grid_partial {L : Type} (labels : List L) (nc : Nat) (hc : 2 ≤ nc) (hl : nc ≤ labels.length) :
    ∃ ps off nr, gridPlot labels nc = some (ps, off) ∧ Rows labels.length nc nr ∧ ps.map (·.2) = labels ∧ (ps.map (·.1)).Nodup ∧
      (∀ i (h : i < labels.length), ps[i]? = some ((i / nc, i % nc), labels[i])) ∧
      ∀ r c, (r, c) ∈ off ↔ r < nr ∧ c < nc ∧ (r, c) ∉ ps.map (·.1) := by
  have h0 : 0 < nc := by omega
  have hrows := rows_iff labels.length nc h0
  generalize hnr : (labels.length + nc - 1) / nc = nr at hrows
  have hpos : 0 < nr := by
    rcases Nat.eq_zero_or_pos nr with h | h
    · have := hrows.1; simp [h] at this; simp [this] at hl; omega
    · exact h
  have ok : ∀ i, i < nr * nc → current nr nc (i / nc) (i % nc) = some (i / nc, i % nc) := by
    intro i hi
    have hm := Nat.mod_lt i h0
    have hd : i / nc < nr := by rw [Nat.div_lt_iff_lt_mul h0]; exact hi
    unfold current
    split_ifs with h
    · simp only [ax2]
      rw [if_neg (by omega), if_pos ⟨hd, hm⟩]
    · have : nr = 1 := by omega
      have h' : i / nc = 0 := Nat.lt_one_iff.1 (this ▸ hd)
      simp only [ax1]
      rw [if_neg (by omega), if_pos hm, h']
  obtain ⟨ps, h1, h2, h3⟩ := place_spec nr nc h0 ok labels 0 (by simpa using hrows.1)
  simp only [Nat.zero_div, Nat.zero_mod, Nat.zero_add] at h1 h3
  have hoff : ∀ e ∈ extra labels.length nc, ax2 nr nc (labels.length / nc) (nc - e - 1) = some (labels.length / nc, nc - e - 1) := by
    intro e he
    unfold extra at he
    split_ifs at he with hm
    · rw [List.mem_range] at he
      have hlt : labels.length / nc < nr := by
        rw [Nat.div_lt_iff_lt_mul h0]
        refine lt_of_le_of_ne hrows.1 fun heq => hm ?_
        rw [heq, Nat.mul_mod_left]
      have hge : 1 ≤ labels.length / nc := (Nat.one_le_div_iff h0).2 hl
      simp only [ax2]
      rw [if_neg (by omega), if_pos ⟨hlt, by omega⟩]
    · simp at he
  have hoff' := mapM_ok (fun e => ax2 nr nc (labels.length / nc) (nc - e - 1)) (fun e => (labels.length / nc, nc - e - 1)) _ hoff
  have hget : ∀ i (h : i < labels.length), ps[i]? = some ((i / nc, i % nc), labels[i]) := by
    intro i h
    rw [h3, List.getElem?_eq_getElem h]
    rfl
  have hcells : ps.map (·.1) = (List.range labels.length).map fun i => (i / nc, i % nc) := by
    apply List.ext_getElem?
    intro i
    by_cases hi : i < labels.length
    · rw [List.getElem?_map, hget i hi, List.getElem?_map, List.getElem?_range hi]; rfl
    · rw [List.getElem?_eq_none (by simp [h2]; omega), List.getElem?_eq_none (by simp; omega)]
  refine ⟨ps, (extra labels.length nc).map fun e => (labels.length / nc, nc - e - 1), nr, ?_, hrows, ?_, ?_, hget, ?_⟩
  · unfold gridPlot
    rw [if_neg (by omega)]
    simp only [hnr]
    rw [if_neg (by omega), h1]
    simp only [Option.bind_some, hoff', Option.map_some]
  · apply List.ext_getElem?
    intro i
    rw [List.getElem?_map, h3]
    cases labels[i]? <;> rfl
  · rw [hcells]
    refine List.Pairwise.map (fun i => (i / nc, i % nc)) ?_ List.nodup_range
    intro i j hne h
    refine hne ?_
    simp only [Prod.mk.injEq] at h
    rw [← Nat.div_add_mod i nc, ← Nat.div_add_mod j nc, h.1, h.2]
  · intro r c
    rw [hcells]
    simp only [List.mem_map, List.mem_range, Prod.mk.injEq, not_exists, not_and]
    have hdm := Nat.div_add_mod labels.length nc
    have hml := Nat.mod_lt labels.length h0
    constructor
    · rintro ⟨e, he, rfl, rfl⟩
      have hax := hoff e he
      simp only [ax2] at hax
      split_ifs at hax with x y
      refine ⟨y.1, y.2, fun i hi hd hmod => ?_⟩
      unfold extra at he
      split_ifs at he with hm
      · rw [List.mem_range] at he
        have := Nat.div_add_mod i nc
        rw [hd, hmod] at this
        omega
      · simp at he
    · rintro ⟨hr, hcc, hno⟩
      have hbig : labels.length ≤ nc * r + c := by
        by_contra hlt
        refine hno (nc * r + c) (by omega) ?_ ?_
        · rw [Nat.mul_add_div h0, Nat.div_eq_of_lt hcc, Nat.add_zero]
        · rw [Nat.mul_add_mod, Nat.mod_eq_of_lt hcc]
      have hrge : labels.length / nc ≤ r := by
        by_contra hlt
        have : nc * (r + 1) ≤ nc * (labels.length / nc) := Nat.mul_le_mul_left _ (by omega)
        rw [Nat.mul_add] at this
        omega
      have hnr' : nr ≤ labels.length / nc + 1 := hrows.2 _ (by
        rw [Nat.add_mul, Nat.mul_comm]; omega)
      have hre : labels.length / nc = r := by omega
      have hm : labels.length % nc ≠ 0 := by
        intro hm
        have : nr ≤ labels.length / nc := hrows.2 _ (by rw [Nat.mul_comm]; omega)
        omega
      refine ⟨nc - c - 1, ?_, hre, by omega⟩
      unfold extra
      rw [if_pos hm, List.mem_range]
      subst hre
      omega

/-- The hypotheses are met: five plots in three columns leave one cell. -/
example : gridPlot ["a", "b", "c", "d", "e"] 3 = some ([((0, 0), "a"), ((0, 1), "b"), ((0, 2), "c"), ((1, 0), "d"), ((1, 1), "e")], [(1, 2)]) := by decide +kernel

/-- **C250 (violated).** Fewer plots than columns (four, unless stated otherwise) cannot be drawn: the call fails. -/
theorem C250_row_violated {L : Type} (labels : List L) (nc : Nat) (h : labels.length < nc) : gridPlot labels nc = none := by
  unfold gridPlot
  split_ifs with h0
  · rfl
  · simp only []
    split_ifs with h1
    · rfl
    · have hnr : (labels.length + nc - 1) / nc = 1 := by
        have : (labels.length + nc - 1) / nc < 2 := by rw [Nat.div_lt_iff_lt_mul (by omega)]; omega
        exact le_antisymm (Nat.lt_succ_iff.1 this) (Nat.pos_of_ne_zero h1)
      rw [hnr]
      have hpos : 0 < labels.length := by
        by_contra hz
        refine h1 (Nat.div_eq_of_lt ?_)
        omega
      rcases place 1 nc 0 0 labels with _ | r
      · rfl
      · simp only [Option.bind_some]
        have : extra labels.length nc = List.range (nc - labels.length) := by
          unfold extra
          rw [Nat.mod_eq_of_lt h, if_pos (by omega)]
        rw [this, show nc - labels.length = (nc - labels.length - 1) + 1 by omega, List.range_succ_eq_map, List.mapM_cons]
        simp [ax2]

/-- **C250 (violated).** Plots cannot be drawn in a single column: the call fails. -/
theorem C250_column_violated {L : Type} (labels : List L) : gridPlot labels 1 = none := by
  unfold gridPlot
  rw [if_neg (by omega)]
  simp only [Nat.add_sub_cancel, Nat.div_one]
  split_ifs with h
  · rfl
  · rcases labels with _ | ⟨l, ls⟩
    · simp at h
    · simp [place, current, ax2, ax1]

end PB.GridProps
