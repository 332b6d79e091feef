import Verif.Props.Batch
/-! # C52: columns of both tables that share names -/
set_option linter.unusedSectionVars false
namespace Surfalize.Props
open Surfalize Surfalize.Batch Surfalize.BatchLemmas
variable {X : Type}

theorem lookup_zip_idx {l : List String} (hnd : l.Nodup) (r : List (Cell X)) (i : Nat) (hi : i < l.length)
    (hr : i < r.length) : (l.zip r).lookup l[i] = some r[i] := by
  induction l generalizing i r with
  | nil => simp at hi
  | cons a l ih =>
    cases r with
    | nil => simp at hr
    | cons b r =>
      cases i with
      | zero => simp
      | succ i =>
        have hne : l[i]'(by simpa using hi) ≠ a := by
          intro h
          exact (List.nodup_cons.1 hnd).1 (h ▸ List.getElem_mem _)
        simp only [List.getElem_cons_succ, List.zip_cons_cons, List.lookup_cons]
        rw [beq_false_of_ne hne]
        exact ih (List.nodup_cons.1 hnd).2 r i (by simpa using hi) (by simpa using hr)

theorem cell_idx {t : Table X} (hnd : t.cols.Nodup) (r : List (Cell X)) (i : Nat) (hi : i < t.cols.length)
    (hr : i < r.length) : t.cell r t.cols[i] = r[i] := by
  unfold Table.cell
  rw [lookup_zip_idx hnd r i hi hr]
  rfl

/-- **C52** (shared columns). When the additional data and the results have columns of the same name, both are kept:
a column of the additional data gets the suffix `_x` and one of the results the suffix `_y` if the other side has a
column of that name, and keeps its name otherwise. The only assumption is that the resulting names are distinct. -/
theorem C52_shared_columns [DecidableEq X] (a : Table X) (results : List (Row X)) (t : Table X)
    (h : constructTable (some a) results = .ok t) (hnd : t.cols.Nodup)
    (ra rb : List (Cell X)) (hra : ra.length = a.cols.length) (hrb : rb ∈ (tableOf results).rows) :
    (∀ c ∈ a.cols, t.cell (ra ++ (((tableOf results).cols.zip rb).filter fun e => decide (e.1 ≠ "file")).map Prod.snd)
        (if c ≠ "file" ∧ c ∈ (tableOf results).cols then c ++ "_x" else c) = a.cell ra c) ∧
    (∀ c ∈ (tableOf results).cols, c ≠ "file" →
      t.cell (ra ++ (((tableOf results).cols.zip rb).filter fun e => decide (e.1 ≠ "file")).map Prod.snd)
        (if c ∈ a.cols then c ++ "_y" else c) = (tableOf results).cell rb c) := by
  have hcols : t.cols = mergeCols a.cols (tableOf results).cols := by
    unfold constructTable merge at h
    simp only at h
    split at h
    · cases h
    · simp only [Except.ok.injEq] at h
      subst h; rfl
  have hrblen : rb.length = (tableOf results).cols.length := by
    simp only [tableOf, List.mem_map] at hrb
    obtain ⟨r, -, rfl⟩ := hrb
    simp [tableOf]
  have hbnd : (tableOf results).cols.Nodup := nodup_eraseDups _
  generalize hb : (tableOf results) = b at *
  set na : String → String := fun c => if c ≠ "file" ∧ c ∈ b.cols then c ++ "_x" else c with hna
  set nb : String → String := fun c => if c ∈ a.cols then c ++ "_y" else c with hnb
  set vb := ((b.cols.zip rb).filter fun e => decide (e.1 ≠ "file")).map Prod.snd with hvb
  have hc : t.cols = a.cols.map na ++ (b.cols.filter (· ≠ "file")).map nb := hcols
  have hzip : (b.cols.filter (· ≠ "file")) = ((b.cols.zip rb).filter fun e => decide (e.1 ≠ "file")).map Prod.fst := by
    have : b.cols = (b.cols.zip rb).map Prod.fst := by
      rw [List.map_fst_zip]; omega
    conv_lhs => rw [this]
    rw [List.filter_map]
    rfl
  have hand : a.cols.Nodup := by
    rw [hc] at hnd
    exact List.Nodup.of_map _ (List.nodup_append.1 hnd).1
  constructor
  · intro c hcm
    obtain ⟨i, hi, rfl⟩ := List.getElem_of_mem hcm
    have hi' : i < t.cols.length := by rw [hc]; simp; omega
    have e : t.cols[i] = na a.cols[i] := by
      simp only [hc]
      rw [List.getElem_append_left (by simpa using hi)]
      simp
    have h1 := cell_idx hnd (ra ++ vb) i hi' (by simp; omega)
    rw [e] at h1
    rw [cell_idx hand ra i hi (by omega)]
    rw [List.getElem_append_left (by omega)] at h1
    exact h1
  · intro c hcm hcf
    have hmem : c ∈ b.cols.filter (· ≠ "file") := by simp [hcm, hcf]
    rw [hzip] at hmem
    obtain ⟨i, hi, hci⟩ := List.getElem_of_mem hmem
    have hil : i < ((b.cols.zip rb).filter fun e => decide (e.1 ≠ "file")).length := by simpa using hi
    have hiv : i < vb.length := by rw [hvb]; simpa using hil
    have hlen : t.cols.length = a.cols.length + vb.length := by
      rw [hc, hzip, hvb]; simp
    have h1 := cell_idx hnd (ra ++ vb) (a.cols.length + i) (by omega) (by simp; omega)
    have e : t.cols[a.cols.length + i]'(by omega) = nb c := by
      have h2 : t.cols[a.cols.length + i]? = some (nb c) := by
        rw [hc, hzip, List.getElem?_append_right (by simp)]
        simp only [List.length_map, Nat.add_sub_cancel_left, List.getElem?_map]
        rw [List.getElem?_eq_getElem hil]
        simp only [Option.map_some]
        rw [← hci]
        simp
      rw [List.getElem?_eq_getElem (by omega)] at h2
      exact Option.some.inj h2
    rw [e] at h1
    have h3 : (ra ++ vb)[a.cols.length + i]'(by simp; omega) = vb[i] := by
      rw [List.getElem_append_right (by omega)]
      congr 1
      omega
    rw [h3] at h1
    show t.cell (ra ++ vb) (nb c) = _
    rw [h1]
    have hz : ((b.cols.zip rb).filter fun e => decide (e.1 ≠ "file"))[i] ∈ b.cols.zip rb :=
      (List.mem_filter.1 (List.getElem_mem hil)).1
    obtain ⟨k, hk, hkz⟩ := List.getElem_of_mem hz
    have hk' : k < b.cols.length ∧ k < rb.length := by
      simp at hk; omega
    have h4 := cell_idx hbnd rb k hk'.1 hk'.2
    have h5 : b.cols[k]'hk'.1 = c ∧ rb[k]'hk'.2 = vb[i] := by
      rw [List.getElem_zip] at hkz
      constructor
      · rw [← hci]; simp only [List.getElem_map]; rw [← hkz]
      · simp only [hvb, List.getElem_map]; rw [← hkz]
    rw [h5.1, h5.2] at h4
    exact h4.symm

/-- Both tables have a column `Sa`. -/
example : constructTable (some ⟨["file", "Sa"], [[.text "a", .num 1]]⟩)
    ([[("file", .text "a"), ("Sa", .num 2)]] : List (Row Nat)) =
    .ok ⟨["file", "Sa_x", "Sa_y"], [[.text "a", .num 1, .num 2]]⟩ := by decide +kernel

end Surfalize.Props
