import Verif.Spec.GwyImages
import Verif.Props.Gwy
/-!
# Properties of the image layers of Gwyddion files (C102)
-/
set_option linter.unusedSectionVars false
namespace Surfalize.Props
open Surfalize Gwy GwySpec FileArr LayoutM

variable {K : Type} [Field K] [LinearOrder K]

/-! ## The dictionary -/

theorem putImage_new {t : List Char} {g : Grid Nat} : ∀ {acc : List (List Char × Grid Nat)}, t ∉ acc.map Prod.fst →
    putImage t g acc = acc ++ [(t, g)]
  | [], _ => rfl
  | p :: acc, h => by
    simp only [List.map_cons, List.mem_cons, not_or] at h
    unfold putImage
    rw [if_neg (fun e => h.1 e.symm), putImage_new h.2]
    rfl

theorem collectImages_ok {top : Fields} {u : List Char} {nx ny : Int} {v : List Char → Option (List Char × Grid Nat)} :
    ∀ {ks : List (List Char)} {acc : List (List Char × Grid Nat)},
    (∀ k ∈ ks, imageOf top u nx ny k = .ok (v k)) → (∀ k ∈ ks, ∀ p, v k = some p → p.1 ∉ acc.map Prod.fst) →
    ks.Pairwise (fun a b => ∀ p q, v a = some p → v b = some q → p.1 ≠ q.1) →
    collectImages top u nx ny ks acc = .ok (acc ++ ks.filterMap v)
  | [], acc, _, _, _ => by simp [collectImages]
  | k :: ks, acc, h, ha, hp => by
    rw [List.pairwise_cons] at hp
    have h' : ∀ k ∈ ks, imageOf top u nx ny k = .ok (v k) := fun x hx => h x (List.mem_cons_of_mem _ hx)
    unfold collectImages
    rw [h k (by simp)]
    cases hv : v k with
    | none =>
      dsimp only
      rw [collectImages_ok h' (fun x hx => ha x (List.mem_cons_of_mem _ hx)) hp.2, List.filterMap_cons, hv]
    | some p =>
      dsimp only
      rw [putImage_new (ha k (by simp) p hv), collectImages_ok h' ?_ hp.2, List.filterMap_cons, hv]
      · simp
      · intro x hx q hq
        simp only [List.map_append, List.map_cons, List.map_nil, List.mem_append, List.mem_singleton, not_or]
        exact ⟨ha x (List.mem_cons_of_mem _ hx) q hq, fun e => hp.1 x hx p q hv hq e.symm⟩

/-- one channel -/
theorem imageOf_eq {top : Fields} {j t u' : List Char} {g : Fields} {nx' ny' : Int} {bits : List Nat} (hd : DataOf top j g)
    (ht : TitleOf top j t) (hr : Raster g nx' ny' u') (hb : g.get "data".toList = some (.dbls bits)) (u : List Char)
    (nx ny : Int) :
    imageOf top u nx ny j =
      if nx' = nx ∧ ny' = ny ∧ u' = u then (reshape bits ny nx).map fun g => some (t, g) else .ok none := by
  obtain ⟨r1, r2, r3⟩ := hr
  unfold imageOf
  rw [(dataField_ok (top := top) (k := j) (r := "/data".toList)).2 hd]
  dsimp only
  rw [channelKey_eq, at_ok.2 ht]
  dsimp only
  rw [at_ok.2 hb]
  dsimp only
  rw [unitStr_ok.2 r3]
  dsimp only
  rw [at_ok.2 r1]
  dsimp only
  rw [at_ok.2 r2]
  dsimp only
  have hc : (sameRes (.int nx') nx && sameRes (.int ny') ny && sameUnit (.str u') u) = decide (nx' = nx ∧ ny' = ny ∧ u' = u) := by
    simp only [sameRes, sameUnit]
    rw [Bool.eq_iff_iff]
    simp only [Bool.and_eq_true, beq_iff_eq, decide_eq_true_eq, and_assoc]
  rw [hc]
  by_cases h : nx' = nx ∧ ny' = ny ∧ u' = u
  · rw [if_pos (by simpa using h), if_pos h]
    simp only [strOf, dblsOf]
    cases reshape bits ny nx <;> rfl
  · rw [if_neg (by simpa using h), if_neg h]

theorem DataOf_inj {top : Fields} {j : List Char} {f g : Fields} (hf : DataOf top j f) (hg : DataOf top j g) : f = g := by
  unfold DataOf at hf hg
  rw [hf] at hg
  simpa using hg

theorem Raster_inj {f : Fields} {nx ny nx' ny' : Int} {u u' : List Char} (h : Raster f nx ny u) (h' : Raster f nx' ny' u') :
    nx = nx' ∧ ny = ny' ∧ u = u' := by
  obtain ⟨a, b, s, c, d⟩ := h
  obtain ⟨a', b', s', c', d'⟩ := h'
  rw [a] at a'; rw [b] at b'; rw [c] at c'
  simp only [Option.some.injEq, GVal.int.injEq, GVal.obj.injEq, true_and] at a' b' c'
  subst c'
  rw [d] at d'
  simp only [Option.some.injEq, GVal.str.injEq] at d'
  exact ⟨a', b', d'⟩

theorem TitleOf_inj {top : Fields} {j s t : List Char} (h : TitleOf top j s) (h' : TitleOf top j t) : s = t := by
  unfold TitleOf at h h'
  rw [h] at h'
  simpa using h'

/-- every channel of a file that can be read has data -/
theorem channel_data {T : Units.Text} {top : Fields} {cands : List (List Char)} {k : List Char}
    (h : guessHeight T top cands = .ok k) : ∀ j ∈ cands, ∃ f, DataOf top j f := by
  intro j hj
  unfold guessHeight at h
  cases hb : byUnit top cands with
  | error e => rw [hb] at h; cases h
  | ok r =>
    obtain ⟨-, h2, -⟩ := collect_spec _ _ _ hb
    obtain ⟨b, hb⟩ := h2 j hj
    unfold hasZUnit at hb
    cases hd : dataField top j "/data".toList with
    | error e => rw [hd] at hb; cases hb
    | ok f => exact ⟨f, (dataField_ok (top := top) (k := j) (r := "/data".toList)).1 hd⟩

theorem isImage_ok {top : Fields} {j : List Char} {f : Fields} (hd : DataOf top j f) :
    isImage top j = .ok (f.get "si_unit_z".toList).isNone := by
  unfold isImage
  rw [(dataField_ok (top := top) (k := j) (r := "/data".toList)).2 hd]

/-! ## C102 -/

/-- **C102** (heights). Asking for the images changes neither heights nor steps: whatever is read with them is read
without them. -/
theorem C102_heights (T : Units.Text) (order : List (List Char) → List (List Char)) (images : Bool)
    (tree : List Char × Fields) (raw : Raw K) (d : List (List Char × Grid Nat))
    (h : fromTreeWith T order images tree = .ok (raw, d)) : fromTree T order tree = .ok raw := by
  unfold fromTreeWith at h
  cases hf : fromTree (K := K) T order tree with
  | error e => rw [hf] at h; cases h
  | ok r =>
    rw [hf] at h
    dsimp only at h
    split at h
    · split at h
      · cases h
      · split at h
        · cases h
        · injection h with h; injection h with h1 h2; rw [h1]
    · injection h with h; injection h with h1 h2; rw [h1]

/-- **C102** (default). Without the option the reader is the one of C65 and there are no images. -/
theorem C102_default (T : Units.Text) (order : List (List Char) → List (List Char)) (tree : List Char × Fields) :
    fromTreeWith (K := K) T order false tree = (fromTree T order tree).map fun r => (r, []) := by
  unfold fromTreeWith
  cases fromTree (K := K) T order tree <;> rfl

/-- **C102/C64** for whole files. Reading with images ends for all bytes, with the heights and steps that are read without
them or an exception, and without the option there is no other difference to the reader of C65 than the missing images. -/
theorem C102_file (T : Units.Text) (enc : Encoding) (order : List (List Char) → List (List Char)) (bytes : Bytes) :
    (∀ images, (∃ raw d, readGwyWith (K := K) T enc order images ⟨bytes, 0⟩ = .done (raw, d) ∧
        readGwy T enc order ⟨bytes, 0⟩ = .done raw) ∨
      ∃ e, readGwyWith (K := K) T enc order images ⟨bytes, 0⟩ = .fail e) ∧
    (∀ raw : Raw K, readGwy T enc order ⟨bytes, 0⟩ = .done raw →
      readGwyWith T enc order false ⟨bytes, 0⟩ = .done (raw, [])) ∧
    ∀ e, readGwy (K := K) T enc order ⟨bytes, 0⟩ = .fail e → ∀ images, readGwyWith (K := K) T enc order images ⟨bytes, 0⟩ = .fail e := by
  have hend := C64_gwy (K := K) T enc order bytes
  unfold readGwyWith
  unfold readGwy at hend ⊢
  by_cases hm : ((⟨bytes, 0⟩ : Handle).read 4).1 ≠ utf8 "GWYP".toList
  · simp only [if_pos hm]
    refine ⟨fun _ => .inr ⟨_, rfl⟩, (fun _ h => by cases h), fun e h _ => by cases h; rfl⟩
  · simp only [if_neg hm] at hend ⊢
    cases hp : parseTree enc ((⟨bytes, 0⟩ : Handle).read 4).2 with
    | more =>
      rw [hp] at hend
      rcases hend with ⟨r, h⟩ | ⟨e, h⟩ <;> cases h
    | fail e =>
      refine ⟨fun _ => .inr ⟨_, rfl⟩, (fun _ h => by cases h), fun e h _ => ?_⟩
      injection h with h
      subst h
      rfl
    | done r =>
      simp only [bind_done]
      refine ⟨fun images => ?_, fun raw h => ?_, fun e h images => ?_⟩
      · cases hw : fromTreeWith (K := K) T order images r.1 with
        | error e => exact .inr ⟨e, rfl⟩
        | ok x =>
          refine .inl ⟨x.1, x.2, rfl, ?_⟩
          rw [C102_heights T order images r.1 x.1 x.2 hw]
          rfl
      · rw [C102_default]
        cases hf : fromTree (K := K) T order r.1 with
        | error e => rw [hf] at h; cases h
        | ok x => rw [hf] at h; injection h with h; subst h; rfl
      · unfold fromTreeWith
        cases hf : fromTree (K := K) T order r.1 with
        | error e' => rw [hf] at h; injection h with h; subst h; rfl
        | ok x => rw [hf] at h; cases h

private theorem fromTree_height {T : Units.Text} {order : List (List Char) → List (List Char)} {name : List Char}
    {top : Fields} {raw : Raw K} (h : fromTree T order (name, top) = .ok raw) :
    ∃ k, guessHeight T top (order (layerKeys top)) = .ok k ∧ readChannel T top k = .ok raw := by
  unfold fromTree at h
  split at h
  · cases hk : guessHeight T top (order (layerKeys top)) with
    | error e => simp only [hk] at h; cases h
    | ok k =>
      simp only [hk] at h
      exact ⟨k, rfl, h⟩
  · cases h

private theorem imagesOf_eq {top : Fields} {k : List Char} {f : Fields} {nx ny : Int} {u : List Char} (hf : DataOf top k f)
    (hr : Raster f nx ny u) (keys : List (List Char)) :
    imagesOf top keys k = (match guessImages top keys with
      | .error e => .error e
      | .ok ks => collectImages top u nx ny ks []) := by
  obtain ⟨r1, r2, r3⟩ := hr
  unfold imagesOf
  rw [(dataField_ok (top := top) (k := k) (r := "/data".toList)).2 hf]
  dsimp only
  have e1 : f.use "xres".toList resOf = .ok nx := by unfold Fields.use; rw [at_ok.2 r1]; rfl
  have e2 : f.use "yres".toList resOf = .ok ny := by unfold Fields.use; rw [at_ok.2 r2]; rfl
  rw [unitStr_ok.2 r3, e1, e2]
  dsimp only
  rfl

/-- **C102** (images). If the images have titles, rasters and as many values as points, and the titles of those with
the raster of the heights differ, then the surface gets exactly these images: each under its title, with the values
stored in the file in the order of rows and columns. -/
theorem C102_images_partial (T : Units.Text) (order : List (List Char) → List (List Char)) (ho : ListsSet order)
    (name : List Char) (top : Fields) (raw : Raw K) (hraw : fromTree T order (name, top) = .ok raw) (k : List Char)
    (hk : guessHeight T top (order (layerKeys top)) = .ok k) (f : Fields) (nx ny : Int) (u : List Char) (hf : DataOf top k f)
    (hr : Raster f nx ny u) (hi : ImagesOk top) (ht : TitlesDiffer top k) :
    ∃ d, fromTreeWith T order true (name, top) = .ok (raw, d) ∧ (d.map Prod.fst).Nodup ∧
      (∀ t, (∃ g, (t, g) ∈ d) ↔ ∃ j bits, ImageOf top k j t bits) ∧
      ∀ t g j bits, (t, g) ∈ d → ImageOf top k j t bits → g.WF ∧ (g.nx : Int) = nx ∧ (g.ny : Int) = ny ∧
        ∀ i c, i < g.ny → c < g.nx → g.rows[i]?.bind (·[c]?) = bits[i * g.nx + c]? := by
  have hm : ∀ x, x ∈ order (layerKeys top) ↔ Channel top x := fun x => by rw [(ho _).2, mem_layerKeys]
  have hdata := channel_data hk
  obtain ⟨ks, hks⟩ := collect_ok (isImage top) (order (layerKeys top)) (fun x hx => by
    obtain ⟨g, hg⟩ := hdata x hx
    exact ⟨_, isImage_ok hg⟩)
  obtain ⟨s1, -, s3⟩ := collect_spec _ _ _ hks
  have hks_nd : ks.Nodup := s1.nodup (ho _).1
  have hmem : ∀ x, x ∈ ks ↔ IsImage top x := by
    intro x
    rw [s3, hm]
    constructor
    · rintro ⟨h1, h2⟩
      obtain ⟨g, hg⟩ := hdata x ((hm x).2 h1)
      rw [isImage_ok hg] at h2
      exact ⟨h1, g, hg, by simpa using h2⟩
    · rintro ⟨h1, g, hg, hn⟩
      exact ⟨h1, by rw [isImage_ok hg, hn]; rfl⟩
  -- the value of each image channel
  have hval : ∀ x, IsImage top x → ∃ v, imageOf top u nx ny x = .ok v ∧
      (∀ t bits, ImageOf top k x t bits → ∃ g, v = some (t, g) ∧ reshape bits ny nx = .ok g) ∧
      (∀ p, v = some p → ∃ bits, ImageOf top k x p.1 bits ∧ reshape bits ny nx = .ok p.2) := by
    intro x hx
    obtain ⟨g, t, nx', ny', u', bits, hg, htt, hrr, hb, h0, h1, hl⟩ := hi x hx
    have he := imageOf_eq hg htt hrr hb u nx ny
    by_cases hc : nx' = nx ∧ ny' = ny ∧ u' = u
    · obtain ⟨rfl, rfl, rfl⟩ := hc
      rw [if_pos ⟨rfl, rfl, rfl⟩] at he
      obtain ⟨gr, hgr⟩ : ∃ gr, reshape bits ny' nx' = .ok gr := by
        unfold reshape
        rw [if_pos ⟨h1, h0, hl⟩]
        exact ⟨_, rfl⟩
      rw [hgr] at he
      refine ⟨some (t, gr), he, ?_, ?_⟩
      · rintro t' bits' ⟨f', g', nx2, ny2, u2, -, -, -, hg', -, ht', hb'⟩
        have := DataOf_inj hg hg'
        subst this
        rw [TitleOf_inj ht' htt]
        rw [hb] at hb'
        simp only [Option.some.injEq, GVal.dbls.injEq] at hb'
        exact ⟨gr, rfl, by rw [← hb']; exact hgr⟩
      · rintro p hp
        simp only [Option.some.injEq] at hp
        subst hp
        exact ⟨bits, ⟨f, g, nx', ny', u', hf, hr, hx, hg, hrr, htt, hb⟩, hgr⟩
    · rw [if_neg hc] at he
      refine ⟨none, he, ?_, by rintro p hp; cases hp⟩
      rintro t' bits' ⟨f', g', nx2, ny2, u2, hf', hr', -, hg', hrg', -, -⟩
      have e1 := DataOf_inj hf hf'
      have e2 := DataOf_inj hg hg'
      subst e1 e2
      obtain ⟨a, b, c⟩ := Raster_inj hr hr'
      obtain ⟨a', b', c'⟩ := Raster_inj hrr hrg'
      exact absurd ⟨by rw [a', a], by rw [b', b], by rw [c', c]⟩ hc
  classical
  let v : List Char → Option (List Char × Grid Nat) := fun x => if h : IsImage top x then (hval x h).choose else none
  have hv : ∀ x, ∀ h : IsImage top x, v x = (hval x h).choose := fun x h => dif_pos h
  have hv1 : ∀ x ∈ ks, imageOf top u nx ny x = .ok (v x) := fun x hx => by
    rw [hv x ((hmem x).1 hx)]; exact (hval x ((hmem x).1 hx)).choose_spec.1
  have hv2 : ∀ x t bits, ImageOf top k x t bits → ∃ g, v x = some (t, g) ∧ reshape bits ny nx = .ok g := by
    intro x t bits him
    have hx : IsImage top x := by obtain ⟨_, _, _, _, _, -, -, h, -⟩ := him; exact h
    rw [hv x hx]
    exact (hval x hx).choose_spec.2.1 t bits him
  have hv3 : ∀ x p, v x = some p → ∃ bits, ImageOf top k x p.1 bits ∧ reshape bits ny nx = .ok p.2 := by
    intro x p hp
    by_cases hx : IsImage top x
    · rw [hv x hx] at hp
      exact (hval x hx).choose_spec.2.2 p hp
    · simp only [v, dif_neg hx] at hp
      cases hp
  have hpw : ks.Pairwise (fun a b => ∀ p q, v a = some p → v b = some q → p.1 ≠ q.1) := by
    refine hks_nd.imp ?_
    intro a b hab p q hp hq he
    obtain ⟨b1, h1, -⟩ := hv3 a p hp
    obtain ⟨b2, h2, -⟩ := hv3 b q hq
    rw [he] at h1
    exact hab (ht a b q.1 b1 b2 h1 h2)
  have hd := collectImages_ok hv1 (acc := []) (by simp) hpw
  rw [List.nil_append] at hd
  refine ⟨ks.filterMap v, ?_, ?_, ?_, ?_⟩
  · unfold fromTreeWith
    rw [hraw]
    dsimp only
    rw [if_pos rfl, hk]
    dsimp only
    rw [imagesOf_eq hf hr, show guessImages top (order (layerKeys top)) = .ok ks from hks]
    dsimp only
    rw [hd]
  · rw [List.Nodup, List.pairwise_map, List.pairwise_filterMap]
    exact hpw.imp fun {a b} h p hp q hq => h p q hp hq
  · intro t
    constructor
    · rintro ⟨g, hg⟩
      obtain ⟨x, -, hx⟩ := List.mem_filterMap.1 hg
      obtain ⟨bits, hb, -⟩ := hv3 x _ hx
      exact ⟨x, bits, hb⟩
    · rintro ⟨j, bits, hj⟩
      obtain ⟨g, hg, -⟩ := hv2 j t bits hj
      refine ⟨g, List.mem_filterMap.2 ⟨j, (hmem j).2 ?_, hg⟩⟩
      obtain ⟨_, _, _, _, _, -, -, h, -⟩ := hj
      exact h
  · intro t g j bits hg hj
    obtain ⟨x, -, hx⟩ := List.mem_filterMap.1 hg
    obtain ⟨bits', hb', hres⟩ := hv3 x _ hx
    have hxj : x = j := ht x j t bits' bits hb' hj
    subst hxj
    obtain ⟨g', hg', hres'⟩ := hv2 x t bits hj
    rw [hg'] at hx
    simp only [Option.some.injEq, Prod.mk.injEq, true_and] at hx
    subst hx
    obtain ⟨g1, g2, g3, g4, g5⟩ := reshape_get hres'
    unfold reshape at hres'
    split at hres'
    · rename_i hc
      refine ⟨g1, by rw [g3]; omega, by rw [g2]; omega, g5⟩
    · cases hres'

/-- **C102** (order). Under the same conditions the images do not depend on the order of the entries of the file nor
on the order in which Python lists the set of channels. -/
theorem C102_order_partial (T : Units.Text) (order order' : List (List Char) → List (List Char)) (ho : ListsSet order)
    (ho' : ListsSet order') (name : List Char) (top : Fields) (raw : Raw K)
    (hraw : fromTree T order (name, top) = .ok raw) (k : List Char)
    (hk : guessHeight T top (order (layerKeys top)) = .ok k) (f : Fields) (nx ny : Int) (u : List Char) (hf : DataOf top k f)
    (hr : Raster f nx ny u) (hi : ImagesOk top) (ht : TitlesDiffer top k) :
    ∃ d d', fromTreeWith T order true (name, top) = .ok (raw, d) ∧ fromTreeWith T order' true (name, top) = .ok (raw, d') ∧
      ∀ p, p ∈ d ↔ p ∈ d' := by
  have hraw' := C65_order_irrelevant T order order' ho ho' name top top (fun _ => rfl) raw hraw
  have hs : Same (order (layerKeys top)) (order' (layerKeys top)) :=
    ⟨(ho _).1, (ho' _).1, fun x => by rw [(ho _).2, (ho' _).2]⟩
  have hk' := guessHeight_same T top hs k hk
  obtain ⟨d, h1, h2, h3, h4⟩ := C102_images_partial T order ho name top raw hraw k hk f nx ny u hf hr hi ht
  obtain ⟨d', h1', h2', h3', h4'⟩ := C102_images_partial T order' ho' name top raw hraw' k hk' f nx ny u hf hr hi ht
  have key : ∀ (a b : List (List Char × Grid Nat)),
      (∀ t, (∃ g, (t, g) ∈ a) ↔ ∃ j bits, ImageOf top k j t bits) →
      (∀ t, (∃ g, (t, g) ∈ b) ↔ ∃ j bits, ImageOf top k j t bits) →
      (∀ t g j bits, (t, g) ∈ a → ImageOf top k j t bits → g.WF ∧ (g.nx : Int) = nx ∧ (g.ny : Int) = ny ∧
        ∀ i c, i < g.ny → c < g.nx → g.rows[i]?.bind (·[c]?) = bits[i * g.nx + c]?) →
      (∀ t g j bits, (t, g) ∈ b → ImageOf top k j t bits → g.WF ∧ (g.nx : Int) = nx ∧ (g.ny : Int) = ny ∧
        ∀ i c, i < g.ny → c < g.nx → g.rows[i]?.bind (·[c]?) = bits[i * g.nx + c]?) →
      ∀ p, p ∈ a → p ∈ b := by
    rintro a b e1 e2 e3 e4 ⟨t, g⟩ hp
    obtain ⟨j, bits, hj⟩ := (e1 t).1 ⟨g, hp⟩
    obtain ⟨g', hg'⟩ := (e2 t).2 ⟨j, bits, hj⟩
    obtain ⟨a1, a2, a3, a4⟩ := e3 t g j bits hp hj
    obtain ⟨b1, b2, b3, b4⟩ := e4 t g' j bits hg' hj
    have hnx : g.nx = g'.nx := by omega
    have hny : g.ny = g'.ny := by omega
    have : g = g' := by
      have hrows : g.rows = g'.rows := by
        apply List.ext_getElem?
        intro i
        by_cases hi' : i < g.ny
        · have hi1 : i < g.rows.length := hi'
          have hi2 : i < g'.rows.length := by
            have : g'.rows.length = g'.ny := rfl
            omega
          rw [List.getElem?_eq_getElem hi1, List.getElem?_eq_getElem hi2]
          congr 1
          have w1 : g.rows[i].length = g.nx := a1 _ (List.getElem_mem hi1)
          have w2 : g'.rows[i].length = g'.nx := b1 _ (List.getElem_mem hi2)
          apply List.ext_getElem?
          intro c
          by_cases hcx : c < g.nx
          · have q1 := a4 i c hi' hcx
            have q2 := b4 i c (by omega) (by omega)
            rw [List.getElem?_eq_getElem hi1, Option.bind_some] at q1
            rw [List.getElem?_eq_getElem hi2, Option.bind_some] at q2
            rw [q1, q2, hnx]
          · rw [List.getElem?_eq_none (by omega), List.getElem?_eq_none (by omega)]
        · have l1 : g.rows.length = g.ny := rfl
          have l2 : g'.rows.length = g'.ny := rfl
          rw [List.getElem?_eq_none (by omega), List.getElem?_eq_none (by omega)]
      cases g; cases g'
      simp only [Grid.mk.injEq]
      exact ⟨hrows, hnx⟩
    rw [this]
    exact hg'
  exact ⟨d, d', h1, h1', fun p => ⟨key d d' h3 h3' h4 h4' p, key d' d h3' h3 h4' h4 p⟩⟩

/-! ## Violations -/

theorem collectImages_error {top : Fields} {j : List Char} {u : List Char} {nx ny : Int} :
    ∀ {l : List (List Char)} {acc : List (List Char × Grid Nat)}, j ∈ l →
    (∀ u nx ny, ∃ e, imageOf top u nx ny j = .error e) → ∃ e, collectImages top u nx ny l acc = .error e
  | [], _, h, _ => by cases h
  | x :: l, acc, h, hje => by
    unfold collectImages
    rcases List.mem_cons.1 h with rfl | h
    · obtain ⟨e, he⟩ := hje u nx ny
      rw [he]
      exact ⟨e, rfl⟩
    · cases imageOf top u nx ny x with
      | error e => exact ⟨e, rfl⟩
      | ok o =>
        cases o with
        | none => exact collectImages_error h hje
        | some p => exact collectImages_error h hje

/-- **C102** (violated for untitled images). A file with an image without a title, which the format allows, cannot be
read with its images, although it can be read without. -/
theorem C102_untitled_violated (T : Units.Text) (order : List (List Char) → List (List Char)) (ho : ListsSet order)
    (name : List Char) (top : Fields) (raw : Raw K) (hraw : fromTree T order (name, top) = .ok raw) (j : List Char)
    (hj : IsImage top j) (hn : top.get ("/".toList ++ j ++ "/data/title".toList) = none) :
    fromTreeWith (K := K) T order false (name, top) = .ok (raw, []) ∧
      ∃ e, fromTreeWith (K := K) T order true (name, top) = .error e := by
  refine ⟨by rw [C102_default, hraw]; rfl, ?_⟩
  obtain ⟨k, hk, -⟩ := fromTree_height hraw
  unfold fromTreeWith
  rw [hraw]
  dsimp only
  rw [if_pos rfl, hk]
  dsimp only
  have herr : ∃ e, imagesOf top (order (layerKeys top)) k = .error e := by
    unfold imagesOf
    split
    · exact ⟨_, rfl⟩
    · split
      · split
        · exact ⟨_, rfl⟩
        · rename_i ks hks
          obtain ⟨-, -, s3⟩ := collect_spec _ _ _ hks
          have hjk : j ∈ ks := by
            obtain ⟨h1, g, hg, hgn⟩ := hj
            rw [s3, (ho _).2, mem_layerKeys]
            exact ⟨h1, by rw [isImage_ok hg, hgn]; rfl⟩
          refine collectImages_error hjk fun u nx ny => ?_
          obtain ⟨-, g, hg, -⟩ := hj
          unfold imageOf
          rw [(dataField_ok (top := top) (k := j) (r := "/data".toList)).2 hg]
          dsimp only
          unfold Fields.at
          rw [channelKey_eq, hn]
          exact ⟨_, rfl⟩
      · exact ⟨_, rfl⟩
  obtain ⟨e, he⟩ := herr
  rw [he]
  exact ⟨e, rfl⟩

/-- **C65** (violated). A number between slashes that is no channel — a graph or a volume of the file, or a graph whose
channel was deleted — makes the whole file unreadable. -/
theorem C65_other_numbers_lost (T : Units.Text) (order : List (List Char) → List (List Char)) (ho : ListsSet order)
    (name : List Char) (top : Fields) (j : List Char) (hj : Channel top j)
    (hn : top.get ("/".toList ++ j ++ "/data".toList) = none) :
    ∃ e, fromTree (K := K) T order (name, top) = .error e := by
  cases h : fromTree (K := K) T order (name, top) with
  | error e => exact ⟨e, rfl⟩
  | ok raw =>
    obtain ⟨k, hk, -⟩ := fromTree_height h
    obtain ⟨f, hf⟩ := channel_data hk j (by rw [(ho _).2, mem_layerKeys]; exact hj)
    unfold DataOf at hf
    rw [hn] at hf
    cases hf

/-! ## Cases -/

/-- Bits of the doubles 1, 2 and 3. -/
private def one' : Nat := 0x3FF0000000000000
private def two' : Nat := 0x4000000000000000
private def three' : Nat := 0x4008000000000000

/-- A data field of two by one points; without a unit of its values it is an image. -/
private def field (unit : Option String) (n : Int) (bits : List Nat) : Fields :=
  .cons "xres".toList (.int n) <| .cons "yres".toList (.int 1) <|
  .cons "xreal".toList (.dbl two') <| .cons "yreal".toList (.dbl two') <|
  .cons "si_unit_xy".toList (.obj "GwySIUnit".toList (.cons "unitstr".toList (.str "m".toList) .nil)) <|
  (match unit with
   | some u => Fields.cons "si_unit_z".toList (.obj "GwySIUnit".toList (.cons "unitstr".toList (.str u.toList) .nil))
   | none => id) <|
  .cons "data".toList (.dbls bits) .nil

/-- A channel with a title. -/
private def chan (k title : String) (f rest : Fields) : Fields :=
  .cons ("/" ++ k ++ "/data").toList (.obj "GwyDataField".toList f) <|
  .cons ("/" ++ k ++ "/data/title").toList (.str title.toList) rest

/-- Heights and two images that are called the same. -/
private def twins : Fields :=
  chan "0" "Height" (field (some "m") 2 [two', 0]) <| chan "1" "Intensity" (field none 2 [one', 0]) <|
  chan "2" "Intensity" (field none 2 [three', 0]) .nil

/-- Heights, an image and an image of another size. -/
private def good : Fields :=
  chan "0" "Height" (field (some "m") 2 [two', 0]) <| chan "1" "Intensity" (field none 2 [one', 0]) <|
  chan "2" "Overview" (field none 3 [three', 0, one']) .nil

private theorem dedup_lists' : ListsSet List.dedup := fun l => ⟨List.nodup_dedup l, fun _ => List.mem_dedup⟩
private theorem reverse_lists : ListsSet fun l => l.dedup.reverse := fun l =>
  ⟨List.nodup_reverse.2 (List.nodup_dedup l), fun _ => by rw [List.mem_reverse, List.mem_dedup]⟩

private theorem guess_first (T : Units.Text) (top : Fields) (l : List (List Char)) (h : byUnit top l = .ok ["0".toList]) :
    guessHeight T top l = .ok "0".toList := by
  unfold guessHeight
  rw [h]

private theorem read_first (T : Units.Text) (hT : UnitsSpec.Faithful T) (order : List (List Char) → List (List Char))
    (top : Fields) (hk : guessHeight T top (order (layerKeys top)) = .ok "0".toList)
    (h1 : DataOf top "0".toList (field (some "m") 2 [two', 0]))
    (h2 : top.get ("/".toList ++ "0".toList ++ "/mask".toList) = none)
    (h3 : top.get ("/".toList ++ "0".toList ++ "/meta".toList) = none) :
    ∃ r : Raw ℚ, fromTree T order ("GwyContainer".toList, top) = .ok r := by
  have hm : FromUnit T "m".toList 0 := .inl ⟨"m", .m, by decide, by decide⟩
  have hv : f64.val ℚ two' = .fin 2 := by decide +kernel
  obtain ⟨r, hr, -⟩ := C65_surface (K := ℚ) hT order top "0".toList hk (field (some "m") 2 [two', 0]) [two', 0]
    "m".toList "m".toList 0 0 (.dbl two') (.dbl two') 2 2 2 1 none h1 rfl ⟨_, rfl, rfl⟩ ⟨_, rfl, rfl⟩ hm hm rfl (.inl ⟨_, rfl, hv⟩) rfl (.inl ⟨_, rfl, hv⟩) rfl rfl
    (by omega) (by omega) rfl h2 (fun v hv => by rw [h3] at hv; cases hv)
  exact ⟨r, hr⟩

/-- **C102** (violated for equal titles). Two images with the same title: only one of them is kept, and which one
depends on the order in which Python lists the set of channels, which differs from run to run. -/
theorem C102_same_title_violated (T : Units.Text) (hT : UnitsSpec.Faithful T) :
    ∃ (top : Fields) (order order' : List (List Char) → List (List Char)) (raw : Raw ℚ) (g g' : Grid Nat),
      ListsSet order ∧ ListsSet order' ∧ Valid (.obj "GwyContainer".toList top) ∧ ImagesOk top ∧
      ImageOf top "0".toList "1".toList "Intensity".toList [0x3FF0000000000000, 0] ∧
      ImageOf top "0".toList "2".toList "Intensity".toList [0x4008000000000000, 0] ∧
      fromTreeWith T order true ("GwyContainer".toList, top) = .ok (raw, [("Intensity".toList, g)]) ∧
      fromTreeWith T order' true ("GwyContainer".toList, top) = .ok (raw, [("Intensity".toList, g')]) ∧ g ≠ g' := by
  have e1 : (layerKeys twins).dedup = ["0".toList, "1".toList, "2".toList] := by decide +kernel
  have hk : guessHeight T twins (layerKeys twins).dedup = .ok "0".toList := guess_first _ _ _ (by rw [e1]; rfl)
  have hk' : guessHeight T twins (layerKeys twins).dedup.reverse = .ok "0".toList := guess_first _ _ _ (by rw [e1]; rfl)
  obtain ⟨r, hr⟩ := read_first T hT List.dedup twins hk rfl rfl rfl
  have hr' := C65_order_irrelevant T List.dedup (fun l => l.dedup.reverse) dedup_lists' reverse_lists _ twins twins
    (fun _ => rfl) r hr
  have hch : ∀ j, Channel twins j → j = "0".toList ∨ j = "1".toList ∨ j = "2".toList := by
    intro j hj
    rw [← mem_layerKeys, ← List.mem_dedup, e1] at hj
    simpa using hj
  have c1 : Channel twins "1".toList := by rw [← mem_layerKeys, ← List.mem_dedup, e1]; simp
  have c2 : Channel twins "2".toList := by rw [← mem_layerKeys, ← List.mem_dedup, e1]; simp
  refine ⟨twins, List.dedup, fun l => l.dedup.reverse, r, ⟨[[three', 0]], 2⟩, ⟨[[one', 0]], 2⟩, dedup_lists', reverse_lists, ?_, ?_,
    ?_, ?_, ?_, ?_, by decide⟩
  · simp only [Valid, ValidFields, twins, chan, field, id, Text, Size, Int', Fields.keys]
    repeat' apply And.intro
    all_goals decide +kernel
  · rintro j ⟨hj, f, hf, hn⟩
    rcases hch j hj with rfl | rfl | rfl
    · have := DataOf_inj (show DataOf twins "0".toList (field (some "m") 2 [two', 0]) from rfl) hf
      subst this
      cases hn
    · exact ⟨field none 2 [one', 0], "Intensity".toList, 2, 1, "m".toList, [one', 0], rfl, rfl, ⟨rfl, rfl, _, rfl, rfl⟩, rfl,
        by omega, by omega, rfl⟩
    · exact ⟨field none 2 [three', 0], "Intensity".toList, 2, 1, "m".toList, [three', 0], rfl, rfl, ⟨rfl, rfl, _, rfl, rfl⟩, rfl,
        by omega, by omega, rfl⟩
  · exact ⟨_, _, 2, 1, "m".toList, rfl, ⟨rfl, rfl, _, rfl, rfl⟩, ⟨c1, _, rfl, rfl⟩, rfl, ⟨rfl, rfl, _, rfl, rfl⟩, rfl, rfl⟩
  · exact ⟨_, _, 2, 1, "m".toList, rfl, ⟨rfl, rfl, _, rfl, rfl⟩, ⟨c2, _, rfl, rfl⟩, rfl, ⟨rfl, rfl, _, rfl, rfl⟩, rfl, rfl⟩
  · unfold fromTreeWith
    rw [hr]
    dsimp only
    rw [if_pos rfl, hk]
    dsimp only
    rw [e1]
    rfl
  · unfold fromTreeWith
    rw [hr']
    dsimp only
    rw [if_pos rfl, hk']
    dsimp only
    rw [e1]
    rfl

/-- A file all of whose images can be attached: the hypotheses of `C102_images_partial` hold, one image has the raster
of the heights and the other one has not. -/
example (T : Units.Text) (hT : UnitsSpec.Faithful T) :
    ∃ (raw : Raw ℚ), fromTree T List.dedup ("GwyContainer".toList, good) = .ok raw ∧
      guessHeight T good (layerKeys good).dedup = .ok "0".toList ∧ ImagesOk good ∧ TitlesDiffer good "0".toList ∧
      fromTreeWith T List.dedup true ("GwyContainer".toList, good) =
        .ok (raw, [("Intensity".toList, ⟨[[0x3FF0000000000000, 0]], 2⟩)]) := by
  have e1 : (layerKeys good).dedup = ["0".toList, "1".toList, "2".toList] := by decide +kernel
  have hk : guessHeight T good (layerKeys good).dedup = .ok "0".toList := guess_first _ _ _ (by rw [e1]; rfl)
  obtain ⟨r, hr⟩ := read_first T hT List.dedup good hk rfl rfl rfl
  have hch : ∀ j, Channel good j → j = "0".toList ∨ j = "1".toList ∨ j = "2".toList := by
    intro j hj
    rw [← mem_layerKeys, ← List.mem_dedup, e1] at hj
    simpa using hj
  have himg : ∀ j t b, ImageOf good "0".toList j t b → j = "1".toList := by
    rintro j t b ⟨f, g, nx, ny, u, hf, hr, ⟨hj, f', hf', hn⟩, hg, hrg, -, -⟩
    have := DataOf_inj (show DataOf good "0".toList (field (some "m") 2 [two', 0]) from rfl) hf
    subst this
    obtain ⟨rfl, rfl, rfl⟩ := Raster_inj (nx := 2) (ny := 1) (u := "m".toList) ⟨rfl, rfl, _, rfl, rfl⟩ hr
    rcases hch j hj with rfl | rfl | rfl
    · have := DataOf_inj (show DataOf good "0".toList (field (some "m") 2 [two', 0]) from rfl) hf'
      subst this
      cases hn
    · rfl
    · have := DataOf_inj (show DataOf good "2".toList (field none 3 [three', 0, one']) from rfl) hg
      subst this
      have := hrg.1
      rw [show (field none 3 [three', 0, one']).get "xres".toList = some (.int 3) from rfl] at this
      simp at this
  refine ⟨r, hr, hk, ?_, ?_, ?_⟩
  · rintro j ⟨hj, f, hf, hn⟩
    rcases hch j hj with rfl | rfl | rfl
    · have := DataOf_inj (show DataOf good "0".toList (field (some "m") 2 [two', 0]) from rfl) hf
      subst this
      cases hn
    · exact ⟨field none 2 [one', 0], "Intensity".toList, 2, 1, "m".toList, [one', 0], rfl, rfl, ⟨rfl, rfl, _, rfl, rfl⟩, rfl,
        by omega, by omega, rfl⟩
    · exact ⟨field none 3 [three', 0, one'], "Overview".toList, 3, 1, "m".toList, [three', 0, one'], rfl, rfl,
        ⟨rfl, rfl, _, rfl, rfl⟩, rfl, by omega, by omega, rfl⟩
  · intro i j t b c h1 h2
    rw [himg i t b h1, himg j t c h2]
  · unfold fromTreeWith
    rw [hr]
    dsimp only
    rw [if_pos rfl, hk]
    dsimp only
    rw [e1]
    rfl

/-- A file with heights and a volume, which surfalize takes for a channel. -/
private def volume : Fields :=
  chan "0" "Height" (field (some "m") 2 [two', 0]) <| .cons "/brick/7/title".toList (.str "Volume".toList) .nil

example : Channel volume "7".toList ∧ volume.get ("/".toList ++ "7".toList ++ "/data".toList) = none ∧ IsLength volume "0".toList := by
  refine ⟨?_, rfl, ⟨field (some "m") 2 [two', 0], "m".toList, 0, rfl, ⟨_, rfl, rfl⟩, by decide⟩⟩
  rw [← mem_layerKeys, ← List.mem_dedup, show (layerKeys volume).dedup = ["0".toList, "7".toList] by decide +kernel]
  simp

/-- A file with an image without a title. -/
private def untitled : Fields :=
  chan "0" "Height" (field (some "m") 2 [two', 0]) <|
  .cons "/1/data".toList (.obj "GwyDataField".toList (field none 2 [one', 0])) .nil

example (T : Units.Text) (hT : UnitsSpec.Faithful T) :
    (∃ raw : Raw ℚ, fromTree T List.dedup ("GwyContainer".toList, untitled) = .ok raw) ∧ IsImage untitled "1".toList ∧
      untitled.get ("/".toList ++ "1".toList ++ "/data/title".toList) = none := by
  have e1 : (layerKeys untitled).dedup = ["0".toList, "1".toList] := by decide +kernel
  have hk : guessHeight T untitled (layerKeys untitled).dedup = .ok "0".toList := guess_first _ _ _ (by rw [e1]; rfl)
  refine ⟨read_first T hT List.dedup untitled hk rfl rfl rfl, ⟨?_, _, rfl, rfl⟩, rfl⟩
  rw [← mem_layerKeys, ← List.mem_dedup, e1]
  simp

end Surfalize.Props
