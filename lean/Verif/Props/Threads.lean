import Verif.Model.Threads
import Mathlib.Data.List.Nodup

/-!
# C112: buffers in batches

A batch of buffers (`FileInput`) gives the same rows with and without threads, whatever the schedule, and can be executed
again - as long as no two entries share a buffer and no load raises.
-/
set_option linter.unusedSectionVars false
namespace Surfalize.Props
open Surfalize Surfalize.Files Surfalize.Threads

namespace Threads

theorem exec_buf (a : Act) (h : Handle) : (a.exec h).2.buf = h.buf := by cases a <;> rfl

theorem run_buf {α : Type} (p : Prog α) (h : Handle) : (p.run h).2.buf = h.buf := by
  induction p generalizing h with
  | ret x => rfl
  | act a k ih => show ((k (a.exec h).1).run (a.exec h).2).2.buf = _; rw [ih, exec_buf]

theorem run_bind {α β : Type} (p : Prog α) (f : α → Prog β) (h : Handle) :
    (p.bind f).run h = (f (p.run h).1).run (p.run h).2 := by
  induction p generalizing h with
  | ret x => rfl
  | act a k ih => exact ih _ _

section
variable {R : Type}

/-- A program as a reader of `Model/FileHandler`. -/
def fn (p : Prog (Except Err R)) : ReadFn R := fun h => ((p.run h).1, (p.run h).2.pos)

theorem put_map {α β γ : Type} [DecidableEq α] (f : β → γ) (k : α) (v : β) (d : List (α × β)) :
    put k (f v) (d.map fun e => (e.1, f e.2)) = (put k v d).map fun e => (e.1, f e.2) := by
  induction d with
  | nil => rfl
  | cons e d ih =>
    obtain ⟨a, b⟩ := e
    by_cases h : a = k
    · simp [put, h]
    · simp [put, h, ih]

theorem puts_map {α β γ : Type} [DecidableEq α] (f : β → γ) (ks : List α) (v : β) (d : List (α × β)) :
    ks.foldl (fun d s => put s (f v) d) (d.map fun e => (e.1, f e.2)) = (ks.foldl (fun d s => put s v d) d).map fun e => (e.1, f e.2) := by
  induction ks generalizing d with
  | nil => rfl
  | cons k ks ih => simp only [List.foldl_cons, put_map, ih]

theorem suffix_map (rs : List (PReader R)) :
    bySuffix (rs.map PReader.reader) = (bySuffixP rs).map fun e => (e.1, fn e.2) := by
  have : ∀ (rs : List (PReader R)) (d : List (List Char × Prog (Except Err R))),
      (rs.map PReader.reader).foldl (fun d r => r.suffixes.foldl (fun d s => put s r.run d) d) (d.map fun e => (e.1, fn e.2)) =
        (rs.foldl (fun d r => r.suffixes.foldl (fun d s => put s r.prog d) d) d).map fun e => (e.1, fn e.2) := by
    intro rs
    induction rs with
    | nil => intro d; rfl
    | cons r rs ih =>
      intro d
      simp only [List.map_cons, List.foldl_cons]
      rw [← ih, ← puts_map]
      rfl
  exact this rs []

theorem magic_map (rs : List (PReader R)) :
    byMagic (rs.map PReader.reader) = (byMagicP rs).map fun e => (e.1, fn e.2) := by
  have : ∀ (rs : List (PReader R)) (d : List (Bytes × Prog (Except Err R))),
      (rs.map PReader.reader).foldl (fun d r => r.magics.foldl (fun d s => put s r.run d) d) (d.map fun e => (e.1, fn e.2)) =
        (rs.foldl (fun d r => r.magics.foldl (fun d s => put s r.prog d) d) d).map fun e => (e.1, fn e.2) := by
    intro rs
    induction rs with
    | nil => intro d; rfl
    | cons r rs ih =>
      intro d
      simp only [List.map_cons, List.foldl_cons]
      rw [← ih, ← puts_map]
      rfl
  exact this rs []

theorem lookup_map {β γ : Type} (f : β → γ) (s : List Char) (d : List (List Char × β)) :
    (d.map fun e => (e.1, f e.2)).lookup s = (d.lookup s).map f := by
  induction d with
  | nil => rfl
  | cons e d ih =>
    obtain ⟨a, b⟩ := e
    by_cases h : s = a
    · subst h; simp
    · have : (s == a) = false := by simpa using h
      simp [List.lookup_cons, this, ih]

/-- The buffer a source stands for. -/
def handle (src : Source) : Handle := ⟨src.content, src.start⟩

theorem run_leave (p : Nat) (r : Prog (Except Err R)) (h : Handle) :
    (r.bind (leave p)).run h = ((r.run h).1, match (r.run h).1 with | .ok _ => ⟨h.buf, p⟩ | .error _ => (r.run h).2) := by
  rw [run_bind]
  have hb := run_buf r h
  rcases hr : r.run h with ⟨e | x, h'⟩
  · rfl
  · rw [hr] at hb
    show (Except.ok x, (⟨h'.buf, p⟩ : Handle)) = (Except.ok x, ⟨h.buf, p⟩)
    rw [hb]

theorem run_attempt (r : Prog (Except Err R)) (b : Bytes) (p : Nat) :
    (attemptP r).run ⟨b, p⟩ = ((attempt (fn r) (.buffer b p)).1, handle (attempt (fn r) (.buffer b p)).2) := by
  show (r.bind (leave p)).run ⟨b, p⟩ = _
  rw [run_leave]
  have hb := run_buf r ⟨b, p⟩
  unfold attempt fn
  show _ = _
  simp only [Source.content, Source.start]
  rcases hr : r.run ⟨b, p⟩ with ⟨e | x, h'⟩
  · rw [hr] at hb
    show (Except.error e, h') = (Except.error e, handle (Source.buffer b h'.pos))
    rw [show h' = ⟨b, h'.pos⟩ by cases h'; cases hb; rfl]
    rfl
  · rfl

theorem attempt_buffer (r : ReadFn R) (b : Bytes) (p : Nat) : ∃ q, (attempt r (.buffer b p)).2 = .buffer b q := by
  unfold attempt
  rcases r ⟨(Source.buffer b p).content, (Source.buffer b p).start⟩ with ⟨e | x, q⟩
  · exact ⟨q, rfl⟩
  · exact ⟨p, rfl⟩

theorem loop_cons (m : Bytes) (r : ReadFn R) (l : List (Bytes × ReadFn R)) (b : Bytes) (p : Nat) :
    byMagicLoop (.buffer b p) ((m, r) :: l) =
      if ((Handle.mk b p).read m.length).1 = m then
        match r ⟨b, 0⟩ with
        | (.ok x, _) => some (.ok x, .buffer b p)
        | (.error e, q) => some (.error e, .buffer b q)
      else byMagicLoop (.buffer b p) l := rfl

theorem run_magic (l : List (Bytes × Prog (Except Err R))) (b : Bytes) (p : Nat) :
    (magicP l).run ⟨b, p⟩ =
      match byMagicLoop (.buffer b p) (l.map fun e => (e.1, fn e.2)) with
      | some (out, src) => (some out, handle src)
      | none => (none, ⟨b, p⟩) := by
  induction l with
  | nil => rfl
  | cons e l ih =>
    obtain ⟨m, r⟩ := e
    rw [List.map_cons, loop_cons]
    show Prog.run (if ((Handle.mk b p).read m.length).1 = m then _ else _) _ = _
    by_cases hm : ((Handle.mk b p).read m.length).1 = m
    · rw [if_pos hm, if_pos hm]
      show (((r.bind (leave p)).bind fun x => .ret (some x)).run ⟨b, 0⟩) = _
      rw [run_bind, run_leave]
      have hb := run_buf r ⟨b, 0⟩
      unfold fn
      rcases hr : r.run ⟨b, 0⟩ with ⟨e | x, h'⟩
      · rw [hr] at hb
        show (some (Except.error e), h') = (some (Except.error e), handle (Source.buffer b h'.pos))
        rw [show h' = ⟨b, h'.pos⟩ by cases h'; cases hb; rfl]
        rfl
      · rfl
    · rw [if_neg hm, if_neg hm]
      exact ih

theorem run_probe (l : List (List Char × Prog (Except Err R))) (b : Bytes) (p : Nat) :
    (probe (.buffer b p) (l.map fun e => (e.1, fn e.2))).1 = none ∧
      ((probeP l).run ⟨b, p⟩).2 = handle (probe (.buffer b p) (l.map fun e => (e.1, fn e.2))).2 := by
  induction l generalizing p with
  | nil => exact ⟨rfl, rfl⟩
  | cons e l ih =>
    obtain ⟨s, r⟩ := e
    have h1 : ((probeP ((s, r) :: l)).run ⟨b, p⟩) = (probeP l).run ((attemptP r).run ⟨b, p⟩).2 := by
      show ((attemptP r).bind fun _ => probeP l).run ⟨b, p⟩ = _
      rw [run_bind]
    rw [h1, run_attempt]
    obtain ⟨q, hq⟩ := attempt_buffer (fn r) b p
    simp only [List.map_cons, probe]
    rcases ha : attempt (fn r) (.buffer b p) with ⟨e | x, src⟩ <;> rw [ha] at hq <;> subst hq <;>
      simpa [Source.isPath, handle, Source.content, Source.start] using ih q

end
end Threads
open Threads

/-- **C112** (the program is `FileHandler.read`). Run alone, the program of a load has the result of `FileHandler.read` as it is
specified for C63, and leaves the buffer where that leaves it. -/
theorem C112_load {R : Type} (rs : List (PReader R)) (format : Option (List Char)) (b : Bytes) (p : Nat) :
    ((loadP rs format).run ⟨b, p⟩).1 = (load (rs.map PReader.reader) (.buffer b p) format).1 ∧
      ((loadP rs format).run ⟨b, p⟩).2 = ⟨b, (load (rs.map PReader.reader) (.buffer b p) format).2.start⟩ := by
  have key : ∀ (e : Option Err) (q : Nat), ((magicP (byMagicP rs)).bind fun
      | some out => .ret out
      | none => (probeP (bySuffixP rs)).bind fun _ => .ret (.error (e.getD .unsupported))).run ⟨b, q⟩ =
      match byMagicLoop (.buffer b q) (byMagic (rs.map PReader.reader)) with
      | some out => (out.1, handle out.2)
      | none => ((.error (e.getD .unsupported) : Except Err R), handle (probe (.buffer b q) (bySuffix (rs.map PReader.reader))).2) := by
    intro e q
    rw [run_bind, run_magic, magic_map]
    generalize byMagicLoop (.buffer b q) ((byMagicP rs).map fun e => (e.1, fn e.2)) = M
    rcases M with _ | ⟨out, src⟩
    · show (((probeP (bySuffixP rs)).bind fun _ => Prog.ret (Except.error (e.getD .unsupported) : Except Err R)).run ⟨b, q⟩) = _
      rw [run_bind, (run_probe (bySuffixP rs) b q).2, suffix_map]
      rfl
    · rfl
  have hmag : ∀ (l : List (Bytes × ReadFn R)) (q : Nat) out src, byMagicLoop (.buffer b q) l = some (out, src) → ∃ q', src = .buffer b q' := by
    intro l q
    induction l with
    | nil => intro out src h; cases h
    | cons a l ih =>
      intro out src h
      obtain ⟨m, r⟩ := a
      rw [loop_cons] at h
      split at h
      · generalize r ⟨b, 0⟩ = M at h
        rcases M with ⟨e | x, q'⟩ <;> cases h
        · exact ⟨q', rfl⟩
        · exact ⟨q, rfl⟩
      · exact ih _ _ h
  have hprobe : ∀ (l : List (List Char × ReadFn R)) (q : Nat), ∃ q', (probe (.buffer b q) l).2 = .buffer b q' := by
    intro l
    induction l with
    | nil => intro q; exact ⟨q, rfl⟩
    | cons a l ih =>
      intro q
      obtain ⟨s, r⟩ := a
      obtain ⟨q', hq'⟩ := attempt_buffer r b q
      simp only [probe]
      rcases ha : attempt r (.buffer b q) with ⟨e | x, src⟩ <;> rw [ha] at hq' <;> subst hq' <;> simpa [Source.isPath] using ih q'
  have pn : ∀ q, (probe (.buffer b q) (bySuffix (rs.map PReader.reader))).1 = none := by
    intro q
    rw [suffix_map]
    exact (run_probe (bySuffixP rs) b q).1
  -- what follows after the first stage
  have fin : ∀ (e : Option Err) (q : Nat),
      (match byMagicLoop (.buffer b q) (byMagic (rs.map PReader.reader)) with
        | some out => (out.1, handle out.2)
        | none => ((.error (e.getD .unsupported) : Except Err R), handle (probe (.buffer b q) (bySuffix (rs.map PReader.reader))).2)) =
      (let L : Except Err R × Source := match byMagicLoop (.buffer b q) (byMagic (rs.map PReader.reader)) with
        | some out => out
        | none =>
          match probe (.buffer b q) (bySuffix (rs.map PReader.reader)) with
          | (some x, src2) => (.ok x, src2)
          | (none, src2) => (.error (e.getD .unsupported), src2)
       (L.1, ⟨b, L.2.start⟩)) := by
    intro e q
    rcases hm : byMagicLoop (.buffer b q) (byMagic (rs.map PReader.reader)) with _ | ⟨out, src⟩
    · obtain ⟨q', hq'⟩ := hprobe (bySuffix (rs.map PReader.reader)) q
      have := pn q
      rcases hp : probe (.buffer b q) (bySuffix (rs.map PReader.reader)) with ⟨_ | x, src2⟩
      · rw [hp] at hq'
        cases hq'
        rfl
      · rw [hp] at this
        cases this
    · obtain ⟨q', rfl⟩ := hmag _ _ _ _ hm
      rfl
  have goal : (loadP rs format).run ⟨b, p⟩ =
      ((load (rs.map PReader.reader) (.buffer b p) format).1, ⟨b, (load (rs.map PReader.reader) (.buffer b p) format).2.start⟩) := by
    cases format with
    | none =>
      refine (key none p).trans ?_
      rw [fin none p]
      rfl
    | some f =>
      have hl : (bySuffix (rs.map PReader.reader)).lookup (lower f) = ((bySuffixP rs).lookup (lower f)).map fn := by
        rw [suffix_map, lookup_map]
      unfold loadP load byName named
      simp only
      rw [hl]
      cases (bySuffixP rs).lookup (lower f) with
      | none =>
        refine (key (some .unsupported) p).trans ?_
        rw [fin]
        rfl
      | some r =>
        simp only [Option.map_some]
        rw [run_bind, run_attempt]
        obtain ⟨q, hq⟩ := attempt_buffer (fn r) b p
        rcases ha : attempt (fn r) (.buffer b p) with ⟨e | x, src⟩ <;> rw [ha] at hq <;> cases hq
        · refine (key (some e) q).trans ?_
          rw [fin]
          rfl
        · rfl
  rw [goal]
  exact ⟨rfl, rfl⟩

/-- A load is direct if the format is left to the magic numbers, or given and right: its reader succeeds. -/
def Direct {R : Type} (rs : List (PReader R)) (format : Option (List Char)) (h : Handle) : Prop :=
  ∀ f, format = some f → ∃ r x, (bySuffixP rs).lookup (lower f) = some r ∧ (r.run h).1 = .ok x

/-- **C112** (position). A direct load that succeeds leaves the buffer as it was. -/
theorem C112_restored {R : Type} (rs : List (PReader R)) (format : Option (List Char)) (h : Handle) (hdir : Direct rs format h) (x : R)
    (hx : ((loadP rs format).run h).1 = .ok x) : ((loadP rs format).run h).2 = h := by
  obtain ⟨b, p⟩ := h
  cases format with
  | none =>
    obtain ⟨h1, h2⟩ := C112_load rs none b p
    rw [h2]
    rw [h1] at hx
    have mg : ∀ (l : List (Bytes × ReadFn R)) (q : Nat) src, byMagicLoop (.buffer b q) l = some (.ok x, src) → src.start = q := by
      intro l q
      induction l with
      | nil => intro src h; cases h
      | cons a l ih =>
        intro src h
        obtain ⟨m, r⟩ := a
        rw [loop_cons] at h
        split at h
        · generalize r ⟨b, 0⟩ = M at h
          rcases M with ⟨e | y, q'⟩ <;> cases h
          rfl
        · exact ih _ h
    have : (load (rs.map PReader.reader) (.buffer b p) none).2.start = p := by
      unfold load byName named at hx ⊢
      simp only at hx ⊢
      rcases hm : byMagicLoop (.buffer b p) (byMagic (rs.map PReader.reader)) with _ | ⟨out, src⟩
      · rw [hm] at hx
        have pn := (run_probe (bySuffixP rs) b p).1
        rw [← suffix_map] at pn
        rcases hp : probe (.buffer b p) (bySuffix (rs.map PReader.reader)) with ⟨_ | y, src2⟩
        · rw [hp] at hx; cases hx
        · rw [hp] at pn; cases pn
      · rw [hm] at hx
        cases hx
        exact mg _ _ _ hm
    rw [this]
  | some f =>
    obtain ⟨r, y, hr, hy⟩ := hdir f rfl
    have : ((loadP rs (some f)).run ⟨b, p⟩) = ((.ok y : Except Err R), (⟨b, p⟩ : Handle)) := by
      unfold loadP
      simp only [hr]
      rw [run_bind]
      have : (attemptP r).run ⟨b, p⟩ = (.ok y, ⟨b, p⟩) := by
        show (r.bind (leave p)).run ⟨b, p⟩ = _
        rw [run_leave, hy]
      rw [this]
      rfl
    rw [this]

/-! ## Schedules -/

namespace Threads
variable {α : Type}

/-- What becomes of thread `j` if it now runs alone: its buffer, its value, the buffer afterwards. -/
def outlook (m : Machine α) (j : Nat) : Option (Nat × α × Handle) :=
  m.threads[j]?.bind fun t => m.buffers[t.1]?.map fun h => (t.1, t.2.run h)

theorem step_fst (m : Machine α) (i : Nat) : (m.step i).threads.map Prod.fst = m.threads.map Prod.fst := by
  unfold Machine.step
  split
  · rename_i b a k ht
    split
    · apply List.ext_getElem?
      intro j
      simp only [List.getElem?_map, List.getElem?_set]
      split
      · rename_i e
        subst e
        rw [ht]
        split <;> simp
        rename_i h
        exact absurd (List.getElem?_eq_some_iff.1 ht).1 h
      · rfl
    · rfl
  · rfl

theorem step_outlook (m : Machine α) (hd : (m.threads.map Prod.fst).Nodup) (i j : Nat) : outlook (m.step i) j = outlook m j := by
  unfold Machine.step
  split
  · rename_i b a k ht
    obtain ⟨hi, hti⟩ := List.getElem?_eq_some_iff.1 ht
    split
    · rename_i h hb
      obtain ⟨hb', -⟩ := List.getElem?_eq_some_iff.1 hb
      unfold outlook
      by_cases e : i = j
      · subst e
        rw [List.getElem?_set_self hi, ht]
        simp only [Option.bind_some, List.getElem?_set_self hb', hb, Option.map_some]
        rfl
      · rw [List.getElem?_set_ne e]
        rcases hj : m.threads[j]? with _ | ⟨b', p'⟩
        · rfl
        · have hne : b ≠ b' := by
            intro e2
            subst e2
            obtain ⟨hj', htj⟩ := List.getElem?_eq_some_iff.1 hj
            exact e ((List.Nodup.getElem_inj_iff hd (hi := by simpa using hi) (hj := by simpa using hj')).1 (by simp [hti, htj]))
          simp [List.getElem?_set_ne hne]
    · rfl
  · rfl

theorem run_fst (sched : List Nat) (m : Machine α) : (m.run sched).threads.map Prod.fst = m.threads.map Prod.fst := by
  induction sched generalizing m with
  | nil => rfl
  | cons i s ih => exact (ih (m.step i)).trans (step_fst m i)

theorem run_outlook (sched : List Nat) (m : Machine α) (hd : (m.threads.map Prod.fst).Nodup) (j : Nat) :
    outlook (m.run sched) j = outlook m j := by
  induction sched generalizing m with
  | nil => rfl
  | cons i s ih =>
    exact (ih (m.step i) (by rw [step_fst]; exact hd)).trans (step_outlook m hd i j)

/-- A schedule that takes one thread to its end. -/
theorem finish_one (p : Prog α) : ∀ (m : Machine α) (i b : Nat), m.threads[i]? = some (b, p) → b < m.buffers.length →
    ∃ n, ∃ x, (m.run (List.replicate n i)).threads = m.threads.set i (b, .ret x) ∧
      (m.run (List.replicate n i)).buffers.length = m.buffers.length := by
  induction p with
  | ret x =>
    intro m i b ht hb
    refine ⟨0, x, ?_, rfl⟩
    show m.threads = _
    obtain ⟨hi, hti⟩ := List.getElem?_eq_some_iff.1 ht
    rw [← hti, List.set_getElem_self]
  | act a k ih =>
    intro m i b ht hb
    obtain ⟨hi, hti⟩ := List.getElem?_eq_some_iff.1 ht
    have hs : m.step i = ⟨m.buffers.set b (a.exec m.buffers[b]).2, m.threads.set i (b, k (a.exec m.buffers[b]).1)⟩ := by
      unfold Machine.step
      simp only [ht, List.getElem?_eq_getElem hb]
    obtain ⟨n, x, h1, h2⟩ := ih (a.exec m.buffers[b]).1 (m.step i) i b (by rw [hs]; simp [hi]) (by rw [hs]; simpa using hb)
    refine ⟨n + 1, x, ?_, ?_⟩
    · show ((m.step i).run (List.replicate n i)).threads = _
      rw [h1, hs]
      simp
    · show ((m.step i).run (List.replicate n i)).buffers.length = _
      rw [h2, hs]
      simp

end Threads

/-- **C112** (threads). If no two threads work on the same buffer, then under every schedule each thread that is finished has
the result it has alone on its buffer, and its buffer is as it is after the thread alone. -/
theorem C112_any_schedule {α : Type} (m : Machine α) (hd : (m.threads.map Prod.fst).Nodup) (sched : List Nat) (i b : Nat) (p : Prog α)
    (ht : m.threads[i]? = some (b, p)) (h : Handle) (hh : m.buffers[b]? = some h) (b' : Nat) (x : α)
    (hx : (m.run sched).threads[i]? = some (b', .ret x)) :
    x = (p.run h).1 ∧ b' = b ∧ (m.run sched).buffers[b]? = some (p.run h).2 := by
  have h1 := run_outlook sched m hd i
  unfold outlook at h1
  rw [hx, ht] at h1
  simp only [Option.bind_some, hh, Option.map_some] at h1
  rcases h2 : (m.run sched).buffers[b']? with _ | h'
  · rw [h2] at h1; cases h1
  · rw [h2] at h1
    simp only [Option.map_some, Option.some.injEq, Prod.mk.injEq] at h1
    obtain ⟨rfl, h3⟩ := h1
    refine ⟨?_, rfl, ?_⟩
    · rw [← h3]; rfl
    · rw [h2, ← h3]; rfl

/-- **C112** (completion). From every state of every schedule the threads can be run to their ends: none waits for another. -/
theorem C112_finishes {α : Type} (m : Machine α) (hb : ∀ t ∈ m.threads, t.1 < m.buffers.length) : ∃ sched, (m.run sched).done := by
  have : ∀ n ≤ m.threads.length, ∃ sched, (m.run sched).threads.map Prod.fst = m.threads.map Prod.fst ∧
      (m.run sched).buffers.length = m.buffers.length ∧
      ∀ i < n, ∃ b x, (m.run sched).threads[i]? = some (b, .ret x) := by
    intro n
    induction n with
    | zero => intro _; exact ⟨[], rfl, rfl, fun i hi => absurd hi (by omega)⟩
    | succ n ih =>
      intro hn
      obtain ⟨s, h1, h2, h3⟩ := ih (by omega)
      have hl : (m.run s).threads.length = m.threads.length := by simpa using congrArg List.length h1
      rcases ht : (m.run s).threads[n]? with _ | ⟨b, p⟩
      · rw [List.getElem?_eq_none_iff] at ht; omega
      · have hbl : b < (m.run s).buffers.length := by
          rw [h2]
          have : b ∈ m.threads.map Prod.fst := by
            rw [← h1]
            exact List.mem_map.2 ⟨_, List.mem_of_getElem? ht, rfl⟩
          obtain ⟨t, h4, rfl⟩ := List.mem_map.1 this
          exact hb t h4
        obtain ⟨k, x, h5, h6⟩ := finish_one p (m.run s) n b ht hbl
        have hrun : m.run (s ++ List.replicate k n) = (m.run s).run (List.replicate k n) := by
          unfold Machine.run; rw [List.foldl_append]
        refine ⟨s ++ List.replicate k n, ?_, ?_, ?_⟩
        · rw [hrun, run_fst, h1]
        · rw [hrun, h6, h2]
        · intro i hi
          rw [hrun, h5]
          by_cases e : i = n
          · subst e; exact ⟨b, x, by rw [List.getElem?_set_self (by omega)]⟩
          · rw [List.getElem?_set_ne (by omega)]
            exact h3 i (by omega)
  obtain ⟨s, h1, h2, h3⟩ := this _ le_rfl
  refine ⟨s, fun t ht => ?_⟩
  obtain ⟨i, hi, rfl⟩ := List.getElem_of_mem ht
  have hl : (m.run s).threads.length = m.threads.length := by simpa using congrArg List.length h1
  obtain ⟨b, x, h4⟩ := h3 i (by omega)
  rw [(List.getElem?_eq_some_iff.1 h4).2]
  rfl

/-! ## Batches of buffers -/

/-- An entry of a batch: the number of its buffer and its format (`FileInput.data`, `FileInput.format`). -/
abbrev Entry := Nat × Option (List Char)

/-- The loads of a batch, one thread each. -/
def loads {R : Type} (rs : List (PReader R)) (files : List Entry) : List (Nat × Prog (Except Err R)) :=
  files.map fun f => (f.1, loadP rs f.2)

/-- What `FileHandler.read` gives for an entry when nothing else happens. -/
def alone {R : Type} (rs : List (PReader R)) (buffers : List Handle) (f : Entry) : Option (Except Err R) :=
  buffers[f.1]?.map fun h => (load (rs.map PReader.reader) (.buffer h.buf h.pos) f.2).1

theorem alone_eq {R : Type} (rs : List (PReader R)) (buffers : List Handle) (f : Entry) :
    alone rs buffers f = buffers[f.1]?.map fun h => ((loadP rs f.2).run h).1 := by
  unfold alone
  congr 1
  funext h
  exact ((C112_load rs f.2 h.buf h.pos).1).symm

/-- **C112** (batches in threads). In a batch of different buffers every file is loaded exactly as if it were alone, under every
schedule of the threads. -/
theorem C112_threads_partial {R : Type} (rs : List (PReader R)) (buffers : List Handle) (files : List Entry)
    (hd : (files.map Prod.fst).Nodup) (hb : ∀ f ∈ files, f.1 < buffers.length) (sched : List Nat)
    (hdone : (Machine.run ⟨buffers, loads rs files⟩ sched).done) :
    (Machine.run ⟨buffers, loads rs files⟩ sched).threads.map (fun t => t.2.value) = files.map (alone rs buffers) := by
  have hfst : (loads rs files).map Prod.fst = files.map Prod.fst := by unfold loads; rw [List.map_map]; rfl
  have hl : (Machine.run ⟨buffers, loads rs files⟩ sched).threads.length = files.length := by
    have := congrArg List.length (run_fst sched ⟨buffers, loads rs files⟩)
    simpa [loads] using this
  apply List.ext_getElem
  · simp [hl]
  · intro i h1 h2
    simp only [List.getElem_map]
    have hi : i < files.length := by simpa using h2
    have hb' := hb files[i] (List.getElem_mem hi)
    have hv := hdone _ (List.getElem_mem (show i < (Machine.run ⟨buffers, loads rs files⟩ sched).threads.length by omega))
    rcases ht : (Machine.run ⟨buffers, loads rs files⟩ sched).threads[i]'(by omega) with ⟨b', x | ⟨a, k⟩⟩
    · have := C112_any_schedule ⟨buffers, loads rs files⟩ (by rw [hfst]; exact hd) sched i files[i].1 (loadP rs files[i].2)
        (by rw [show (Machine.mk buffers (loads rs files)).threads = files.map fun f => (f.1, loadP rs f.2) from rfl, List.getElem?_map, List.getElem?_eq_getElem hi]; rfl) buffers[files[i].1] (List.getElem?_eq_getElem hb') b' x
        (by rw [List.getElem?_eq_getElem (by omega), ht])
      rw [alone_eq, List.getElem?_eq_getElem hb']
      show some x = some _
      rw [this.1]
    · rw [ht] at hv; cases hv

/-- **C112** (batches one after the other). If every load of the batch is direct and succeeds, then without threads every file
is loaded as if it were alone - also when entries share a buffer - and all buffers are as before, so that the batch can be
executed again. -/
theorem C112_again_partial {R : Type} (rs : List (PReader R)) (buffers : List Handle) (files : List Entry)
    (hok : ∀ f ∈ files, ∃ h x, buffers[f.1]? = some h ∧ Direct rs f.2 h ∧ ((loadP rs f.2).run h).1 = .ok x) :
    ∃ xs, sequential buffers (loads rs files) = (.ok xs, buffers) ∧ files.map (alone rs buffers) = xs.map fun x => some (.ok x) := by
  induction files with
  | nil => exact ⟨[], rfl, rfl⟩
  | cons f files ih =>
    obtain ⟨xs, h1, h2⟩ := ih fun g hg => hok g (List.mem_cons_of_mem _ hg)
    obtain ⟨h, x, hb, hdir, hx⟩ := hok f List.mem_cons_self
    have hr := C112_restored rs f.2 h hdir x hx
    refine ⟨x :: xs, ?_, ?_⟩
    · have hrun : (loadP rs f.2).run h = (.ok x, h) := Prod.ext hx hr
      have hset : buffers.set f.1 h = buffers := by
        obtain ⟨hl, he⟩ := List.getElem?_eq_some_iff.1 hb
        rw [← he, List.set_getElem_self]
      show sequential buffers ((f.1, loadP rs f.2) :: loads rs files) = _
      simp only [sequential, hb, hrun, hset, h1]
    · rw [List.map_cons, List.map_cons, h2, alone_eq, hb, Option.map_some, hx]

/-! ### Witnesses -/

/-- A reader of two bytes for `.two`; it fails on an empty file and on a first byte of 0. -/
def twoBytes : PReader (Bytes × Bytes) where
  suffixes := [".two".toList]
  magics := []
  prog := .act (.read 1) fun a => if a.1 = [] ∨ a.1 = [0] then .ret (.error .corrupted) else .act (.read 1) fun b => .ret (.ok (a.1, b.1))

/-- The hypotheses of the positive theorems are met by a batch of two buffers. -/
example : (([(0, some ".two".toList), (1, some ".TWO".toList)] : List Entry).map Prod.fst).Nodup ∧
    ∀ f ∈ ([(0, some ".two".toList), (1, some ".TWO".toList)] : List Entry),
      ∃ h x, ([⟨[1, 2], 0⟩, ⟨[7, 8, 9], 1⟩] : List Handle)[f.1]? = some h ∧ Direct [twoBytes] f.2 h ∧
        ((loadP [twoBytes] f.2).run h).1 = .ok x := by
  refine ⟨by decide, fun f hf => ?_⟩
  simp only [List.mem_cons, List.not_mem_nil, or_false] at hf
  rcases hf with rfl | rfl
  · refine ⟨⟨[1, 2], 0⟩, ([1], [2]), rfl, fun f hf => ⟨twoBytes.prog, ([1], [2]), ?_, by rfl⟩, by rfl⟩
    injection hf with hf
    subst hf
    rfl
  · refine ⟨⟨[7, 8, 9], 1⟩, ([8], [9]), rfl, fun f hf => ⟨twoBytes.prog, ([8], [9]), ?_, by rfl⟩, by rfl⟩
    injection hf with hf
    subst hf
    rfl

/-- **C112** is false of entries that share a buffer: the batch loads both files correctly one after the other, but with threads
there is a schedule in which both loads succeed with wrong data. -/
theorem C112_shared_violated :
    let files : List Entry := [(0, some ".two".toList), (0, some ".two".toList)]
    let buffers : List Handle := [⟨[1, 2, 3, 4], 0⟩]
    (sequential buffers (loads [twoBytes] files)).1 = .ok [([1], [2]), ([1], [2])] ∧
      ∃ sched, (Machine.run ⟨buffers, loads [twoBytes] files⟩ sched).threads.map (fun t => t.2.value) =
        [some (.ok ([1], [4])), some (.ok ([2], [3]))] := by
  refine ⟨by rfl, [0, 0, 1, 1, 1, 0, 0, 1], by rfl⟩

/-- **C112** is false after a load that raises: the position is not put back. The same batch executed again succeeds, with the data
behind the place where the first attempt stopped. -/
theorem C112_again_violated :
    let files : List Entry := [(0, some ".two".toList)]
    let buffers : List Handle := [⟨[0, 5, 6], 0⟩]
    let first := sequential buffers (loads [twoBytes] files)
    first.1 = .error .corrupted ∧ (sequential first.2 (loads [twoBytes] files)).1 = .ok [([5], [6])] := by
  refine ⟨by rfl, by rfl⟩

end Surfalize.Props
