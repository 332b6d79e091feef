import Verif.Props.SurImages
import Verif.Props.Dat
import Verif.Model.Nms
import Verif.Props.Opd
import Verif.Model.Os3d
import Verif.Model.Plux
import Verif.Model.Vk
import Verif.Model.Sflz
/-!
# C104: asking for the image layers does not change the heights, for every format that has them

In each theorem the reader with `images = true` succeeds; then the same reader with `images = false` succeeds with the
same surface and no image.
-/
set_option linter.unusedSectionVars false
namespace Surfalize.Props
open Surfalize FileArr LayoutM

variable {K : Type} [Field K] [LinearOrder K]

/-- **C104** (MetroPro). -/
theorem C104_dat {images : Bool} {buf : Bytes} {out : Dat.Out K} (h : Dat.readDat images ⟨buf, 0⟩ = .ok out) :
    Dat.readDat false ⟨buf, 0⟩ = .ok (⟨out.surface, []⟩ : Dat.Out K) := by
  cases images with
  | true => exact (C66_dat_images h).1
  | false =>
    rw [h]
    have hl : out.layers = [] := by
      unfold Dat.readDat at h
      dsimp only at h
      split at h
      · cases h
      · split at h
        · cases h
        · rename_i d h1 _
          unfold Dat.afterHeader at h
          split at h
          · split at h
            · cases h
            · split at h
              · cases h
              · split at h
                · cases h
                · rw [if_neg (by simp)] at h
                  unfold Dat.surface at h
                  split at h
                  · split at h
                    · cases h
                    · split at h
                      · cases h
                      · split at h
                        · cases h
                        · split at h
                          · cases h
                          · cases h; rfl
                  · cases h
          · cases h
    rw [← hl]

/-- **C104** (NMS). -/
theorem C104_nms {parseDate : List Char → Except Err Unit} {enc : Encoding} {images : Bool} {h : Handle} {r : Raw K}
    {im : Option (Grid Int)} (hr : Nms.readNms parseDate enc images h = .ok (r, im)) :
    Nms.readNms parseDate enc false h = .ok (r, none) := by
  unfold Nms.readNms at hr ⊢
  split at hr
  · cases hr
  · rename_i z hz
    try rw [hz]
    try dsimp only
    split at hr
    · cases hr
    · rename_i date hd
      try rw [hd]
      try dsimp only
      split at hr
      · cases hr
      · rename_i hp
        try rw [hp]
        try dsimp only
        split at hr
        · rename_i pts sp h1 h2
          try rw [h1, h2]
          try dsimp only
          split at hr
          · cases hr
          · rename_i l h' hl
            try rw [hl]
            try dsimp only
            split at hr
            · cases hr
            · rename_i g hg
              try rw [hg]
              try dsimp only
              split at hr
              · rename_i dx dy e1 e2
                try rw [e1, e2]
                try dsimp only
                rw [if_neg (by simp)]
                split at hr
                · split at hr
                  · cases hr
                  · cases hr; rfl
                · cases hr; rfl
              · cases hr
        · cases hr
        · cases hr

/-- **C104** (OPD). -/
theorem C104_opd {parseDate : List Char → Except Err Unit} {enc : Encoding} {images : Bool} {h : Handle} {r : Raw K}
    {im : Option (Grid (Option K))} (hr : Opd.readOpd parseDate enc images h = .ok (r, im)) :
    Opd.readOpd parseDate enc false h = .ok (r, none) := by
  unfold Opd.readOpd at hr ⊢
  split at hr
  · cases hr
  · rename_i hm
    rw [if_neg hm]
    split at hr
    · cases hr
    · rename_i name u size h1 hd
      try rw [hd]
      try dsimp only
      split at hr
      · cases hr
      · rename_i hn
        rw [if_neg hn]
        split at hr
        · cases hr
        · rename_i d h2 hds
          try rw [hds]
          try dsimp only
          unfold Opd.fromBlocks at hr ⊢
          split at hr
          · cases hr
          · rename_i b hb
            try rw [hb]
            try dsimp only
            split at hr
            · cases hr
            · rename_i a ha
              try rw [ha]
              try dsimp only
              have : Opd.readImage K false (Opd.offsets h2.pos d) h2 = .ok none := rfl
              try rw [this]
              try dsimp only
              split at hr
              · cases hr
              · split at hr
                · cases hr
                · rename_i m hm
                  try rw [hm]
                  try dsimp only
                  split at hr
                  · cases hr
                  · rename_i ht
                    try rw [ht]
                    try dsimp only
                    split at hr
                    · cases hr
                    · rename_i r' hs
                      try rw [hs]
                      cases hr; rfl

/-- **C104** (OS3D). -/
theorem C104_os3d {Time Image : Type} {parseDate : List Char → Except Err Time} {openImage : Bytes → Except Err Image}
    {enc : Encoding} {images : Bool} {h : Handle} {r : Raw K} {i : Os3d.Info Time} {im : Option Image}
    (hr : Os3d.readOs3d parseDate openImage enc images h = .ok (r, i, im)) :
    Os3d.readOs3d parseDate openImage enc false h = .ok (r, i, none) := by
  unfold Os3d.readOs3d at hr ⊢
  split at hr
  · cases hr
  · rename_i hm
    rw [if_neg hm]
    split at hr
    · cases hr
    · rename_i d h1 hd
      try rw [hd]
      try dsimp only
      split at hr
      · rename_i nx ny sx sy name date e1 e2 e3 e4 e5 e6
        try rw [e1, e2, e3, e4, e5, e6]
        try dsimp only
        split at hr
        · cases hr
        · rename_i l h2 hl
          try rw [hl]
          try dsimp only
          split at hr
          · cases hr
          · rename_i g hg
            try rw [hg]
            try dsimp only
            split at hr
            · cases hr
            · rename_i t ht
              try rw [ht]
              try dsimp only
              split at hr
              · cases hr
              · rename_i hlen
                rw [if_neg hlen, if_neg (by simp)]
                split at hr
                · cases hr; rfl
                · cases hr
                · cases hr
      · cases hr

/-- **C104** (PLU). -/
theorem C104_plu {parseDate : List Char → Except Err Unit} {enc : Encoding} {images : Bool} {h : Handle} {r : Raw K}
    {im : Option Plu.Layer} (hr : Plu.readPlu parseDate enc images h = .ok (r, im)) :
    Plu.readPlu parseDate enc false h = .ok (r, none) := by
  unfold Plu.readPlu at hr ⊢
  split at hr
  · cases hr
  · rename_i s hs
    try rw [hs]
    try dsimp only
    split at hr
    · cases hr
    · rename_i hp
      try rw [hp]
      try dsimp only
      split at hr
      · cases hr
      · rename_i d h1 hd
        try rw [hd]
        try dsimp only
        split at hr
        · cases hr
        · rename_i u h2 h2'
          try rw [h2']
          try dsimp only
          unfold Plu.surface at hr ⊢
          split at hr
          · rename_i nx ny sx sy e1 e2 e3 e4
            try rw [e1, e2, e3, e4]
            try dsimp only
            split at hr
            · cases hr
            · rename_i l h' hl
              try rw [hl]
              try dsimp only
              try rw [if_neg (by simp)]
              try dsimp only
              split at hr
              · cases hr
              · split at hr
                · rename_i g sx sy hg
                  try rw [hg]
                  cases hr; rfl
                · cases hr
                · cases hr
          · cases hr

/-- **C104** (PLUX). -/
theorem C104_plux {Time : Type} {E : Plux.Env K Time} {enc : Encoding} {images : Bool} {h : Handle} {r : Raw K}
    {i : Plux.Info Time} {im : Option Plu.Layer} (hr : Plux.readPlux E enc images h = .ok (r, i, im)) :
    Plux.readPlux E enc false h = .ok (r, i, none) := by
  unfold Plux.readPlux at hr ⊢
  split at hr
  · cases hr
  · rename_i a ha
    try rw [ha]
    try dsimp only
    split at hr
    · cases hr
    · rename_i data img index hm
      have hm' : Plux.members a false = .ok (data, none, index) := by
        unfold Plux.members at hm ⊢
        split at hm
        · cases hm
        · rename_i b hb
          try rw [hb]
          try dsimp only
          try rw [if_neg (by simp)]
          try dsimp only
          split at hm
          · cases hm
          · split at hm
            · cases hm
            · rename_i x hx
              cases hm; rfl
      try rw [hm']
      try dsimp only
      split at hr
      · cases hr
      · rename_i s hs
        try rw [hs]
        try dsimp only
        split at hr
        · cases hr
        · rename_i root hx
          try rw [hx]
          try dsimp only
          split at hr
          · cases hr
          · rename_i i' hi
            try rw [hi]
            try dsimp only
            split at hr
            · cases hr
            · rename_i nx ny sx sy hg
              try rw [hg]
              try dsimp only
              split at hr
              · cases hr
              · rename_i l hl
                try rw [hl]
                try dsimp only
                split at hr
                · cases hr
                · rename_i g hg
                  try rw [hg]
                  try dsimp only
                  try rw [if_neg (by simp)]
                  try dsimp only
                  split at hr
                  · cases hr
                  · cases hr; rfl

/-- **C104** (VK4). -/
theorem C104_vk4 {enc : Encoding} {images : Bool} {h : Handle} {r : Raw K} {i : Vk.Info K} {im : Option Vk.Layers}
    (hr : Vk.readVk4 enc images h = .ok (r, i, im)) : Vk.readVk4 enc false h = .ok (r, i, none) := by
  unfold Vk.readVk4 at hr ⊢
  split at hr
  · cases hr
  · rename_i d h1 hd
    try rw [hd]
    try dsimp only
    split at hr
    · rename_i meas peak light laser height strings e1 e2 e3 e4 e5 e6
      try rw [e1, e2, e3, e4, e5, e6]
      try dsimp only
      split at hr
      · cases hr
      · rename_i c h2 hc
        try rw [hc]
        try dsimp only
        try rw [if_neg (by simp)]
        try dsimp only
        split at hr
        · cases hr
        · split at hr
          · cases hr
          · rename_i g hg
            try rw [hg]
            try dsimp only
            split at hr
            · cases hr
            · rename_i s hs
              try rw [hs]
              try dsimp only
              split at hr
              · cases hr
              · rename_i r' i' hf
                try rw [hf]
                cases hr; rfl
    · cases hr

/-- **C104** (VK6 and VK7). -/
theorem C104_vk67 {archive : Bytes → Except Err (List Char → Except Err Bytes)} {enc : Encoding} {images : Bool}
    {h : Handle} {r : Raw K} {i : Vk.Info K} {im : Option Vk.Layers}
    (hr : Vk.readVk67 archive enc images h = .ok (r, i, im)) : Vk.readVk67 archive enc false h = .ok (r, i, none) := by
  unfold Vk.readVk67 at hr ⊢
  split at hr
  · cases hr
  · rename_i member hm
    try rw [hm]
    try dsimp only
    split at hr
    · cases hr
    · rename_i b hb
      exact C104_vk4 hr

/-- **C104** (SFLZ). -/
theorem C104_sflz {L : Sflz.Codecs} {images : Bool} {h : Handle} {s : Sflz.Surf K}
    (hr : Sflz.readSflz L images h = .ok s) : Sflz.readSflz L false h = .ok ⟨s.raw, []⟩ := by
  unfold Sflz.readSflz at hr ⊢
  dsimp only at hr ⊢
  split at hr
  · cases hr
  · rename_i hm
    rw [if_neg hm]
    split at hr
    · cases hr
    · rename_i d h1 hd
      try rw [hd]
      try dsimp only
      split at hr
      · rename_i code n scaled lo hi sx sy e1 e2 e3 e4 e5 e6 e7
        try rw [e1, e2, e3, e4, e5, e6, e7]
        try dsimp only
        generalize (if images = true then n.toNat else 1) = N at hr
        split at hr
        · cases hr
        · rw [if_neg (by simp)]
          split at hr
          · cases hr
          · rename_i l h2 hl
            try rw [hl]
            try dsimp only
            split at hr
            · cases hr
            · rename_i hc
              rw [if_neg hc]
              split at hr
              · cases hr
              · rename_i hc2
                rw [if_neg hc2]
                split at hr
                · cases hr
                · rename_i items hit
                  try rw [hit]
                  try dsimp only
                  split at hr
                  · cases hr
                  · rename_i g hg
                    try rw [hg]
                    try dsimp only
                    split at hr
                    · cases hr
                    · split at hr
                      · cases hr; rfl
                      · cases hr
      · cases hr

/-! ## Examples: files that are read with their images -/

/-- Whether a file is read. -/
private def isOk {α : Type} (x : Except Err α) : Bool := match x with | .ok _ => true | .error _ => false

set_option maxRecDepth 20000

private def datFile : Bytes :=
  [0x88, 0x1b, 0x03, 0x6f, 0, 1, 0, 0, 3, 0x42] ++ List.replicate 42 0 ++ [0, 1, 0, 1, 0, 1, 0, 9, 0, 0, 0, 2] ++
    List.replicate 4 0 ++ [0, 2, 0, 1] ++ List.replicate 92 0 ++
    [0x3f, 0x80, 0, 0, 0x3f, 0x80, 0, 0] ++ List.replicate 4 0 ++ [0x3f, 0x80, 0, 0] ++ List.replicate 4 0 ++
    [0x3f, 0, 0, 0] ++ List.replicate 30 0 ++ [0, 1] ++ List.replicate 614 0 ++
    [0, 7, 0, 0, 0, 1, 0xff, 0xff, 0xff, 0xff]

example : isOk (Dat.readDat (K := ℚ) true ⟨datFile, 0⟩) = true := by decide +kernel

private def nmsFile : Bytes :=
  List.replicate 16 0 ++ [0, 0, 0, 0, 0, 0, 0, 0] ++ [0, 0, 0, 0, 0, 0, 0xf0, 0x3f] ++ List.replicate 1336 0 ++
    [2, 0, 0, 0, 2, 0, 0, 0] ++ [0, 0, 0, 0, 0, 0, 0xf0, 0x3f] ++ [0, 0, 0, 0, 0, 0, 0xf0, 0x3f] ++
    List.replicate 2076 0 ++ [0, 0, 0xff, 0x7f, 0xfe, 0xff, 1, 1] ++ [0, 1, 2, 3]

example : isOk (Nms.readNms (K := ℚ) (fun _ => .ok ()) .utf8 true ⟨nmsFile, 0⟩) = true := by decide +kernel

example (parse : List Char → Except Err Unit) : ∃ (r : Raw ℚ) (im : Grid (Option ℚ)),
    Opd.readOpd parse .utf8 true ⟨OpdSpec.file opdExample ++ [1, 2, 3], 0⟩ = .ok (r, some im) := by
  obtain ⟨r, h1, -⟩ := C66_opd (K := ℚ) (parse := parse) .utf8 opdExample_valid
    (show OpdSpec.Dated parse opdExample from trivial) [1, 2, 3] (show OpdSpec.find opdExample "RAW_DATA" = some _ from rfl)
    (wavelength := 500) (mult := 100) (pixel := 1) (aspect := 1) rfl rfl (by norm_num) rfl rfl
  obtain ⟨im, h2, -⟩ := (C66_opd_image .utf8 opdExample_valid [1, 2, 3] h1).2 1 2 1 [9, 8] rfl
  exact ⟨r, im, h2⟩

private def os3dFile : Bytes :=
  utf8 "OmniSurf3D".toList ++ [1, 0, 0, 0, 0, 0, 0, 0] ++ [2, 0, 0, 0, 0x49, 0x64] ++ [2, 0, 0, 0, 0x78, 0x20] ++
    [2, 0, 0, 0, 1, 0, 0, 0] ++ [0, 0, 0, 0, 0, 0, 0xf0, 0x3f] ++ [0, 0, 0, 0, 0, 0, 0xe0, 0x3f] ++
    List.replicate 16 0 ++ [0, 0, 0x20, 0x40, 0xff, 0xff, 0x7f, 0xff] ++ [1, 7]

example : isOk (Os3d.readOs3d (K := ℚ) (fun s => .ok s) (fun b => .ok b) .utf8 true ⟨os3dFile, 0⟩) = true := by
  decide +kernel

private def pluFile : Bytes :=
  List.replicate 388 0 ++ [1, 0, 0, 0, 2, 0, 0, 0] ++ List.replicate 8 0 ++ [0, 0, 0x80, 0x3f, 0, 0, 0, 0x3f] ++
    List.replicate 88 0 ++ [0, 0, 0x20, 0x40, 0x10, 0x24, 0x74, 0x49] ++ List.replicate 16 0 ++ [1, 2, 3, 1, 1, 1]

example : isOk (Plu.readPlu (K := ℚ) (fun _ => .ok ()) .utf8 true ⟨pluFile, 0⟩) = true := by decide +kernel

private def vkFile : Bytes :=
  List.replicate 12 0 ++
    [80, 0, 0, 0, 0xae, 4, 0, 0, 0xae, 4, 0, 0, 0x80, 1, 0, 0] ++ List.replicate 8 0 ++ [0x80, 1, 0, 0] ++
    List.replicate 36 0 ++ [0xa0, 4, 0, 0] ++
    ([0, 0, 0, 0, 0xe8, 7, 0, 0, 2, 0, 0, 0, 29, 0, 0, 0, 23, 0, 0, 0, 59, 0, 0, 0, 58, 0, 0, 0] ++
      List.replicate 44 0 ++ [10, 0, 0, 0] ++ List.replicate 20 0 ++ [0xf4, 1, 0, 0] ++ List.replicate 68 0 ++
      [0x88, 0x13, 0, 0, 0xb8, 0x0b, 0, 0, 100, 0, 0, 0] ++ List.replicate 124 0) ++
    ([2, 0, 0, 0, 1, 0, 0, 0, 16, 0, 0, 0, 0, 0, 0, 0, 4, 0, 0, 0] ++ List.replicate 776 0 ++ [7, 0, 0, 1]) ++
    [2, 0, 0, 0, 0x42, 0, 0x41, 0, 1, 0, 0, 0, 0x4c, 0] ++
    [2, 0, 0, 0, 1, 0, 0, 0, 24, 0, 0, 0, 0, 0, 0, 0, 6, 0, 0, 0, 1, 2, 3, 4, 5, 6]

example : isOk (Vk.readVk4 (K := ℚ) .utf8 true ⟨vkFile, 0⟩) = true := by decide +kernel
example : isOk (Vk.readVk67 (K := ℚ) (fun b => .ok fun _ => .ok b) .utf8 true ⟨vkFile, 0⟩) = true := by decide +kernel

end Surfalize.Props
