import Verif.Props.Cli

/-!
C73: JSON input and the descriptors of the registry.
-/

set_option autoImplicit false

namespace Verif

variable {P B D : Type}

theorem mergeFiles_append (seen : List Str) (files a b : List (FileDesc D)) :
    mergeFiles seen files (a ++ b) = mergeFiles (mergeFiles seen files a).1 (mergeFiles seen files a).2 b := by
  induction a generalizing seen files with
  | nil => rfl
  | cons f a ih =>
    rw [List.cons_append, mergeFiles, mergeFiles]
    split
    · exact ih _ _
    · exact ih _ _

theorem mergeFiles_prefix (seen : List Str) (files a : List (FileDesc D)) : files <+: (mergeFiles seen files a).2 := by
  induction a generalizing seen files with
  | nil => exact List.prefix_refl _
  | cons f a ih =>
    rw [mergeFiles]
    split
    · exact ih _ _
    · exact (List.prefix_append _ _).trans (ih _ _)

theorem mergeBlobs_prefix (decode : B → Option (List (FileDesc D))) (b : List B) (seen : List Str)
    (files out : List (FileDesc D)) (h : mergeBlobs decode seen files b = some out) : files <+: out := by
  induction b generalizing seen files with
  | nil => rw [mergeBlobs] at h; cases h; exact List.prefix_refl _
  | cons x b ih =>
    rw [mergeBlobs] at h
    split at h
    · cases h
    · exact (mergeFiles_prefix _ _ _).trans (ih _ _ h)

theorem mergeBlobs_more (decode : B → Option (List (FileDesc D))) (a b : List B) (seen : List Str)
    (files out out' : List (FileDesc D)) (h : mergeBlobs decode seen files a = some out)
    (h' : mergeBlobs decode seen files (a ++ b) = some out') : out <+: out' := by
  induction a generalizing seen files with
  | nil =>
    rw [mergeBlobs] at h
    cases h
    exact mergeBlobs_prefix decode b _ _ _ h'
  | cons x a ih =>
    rw [List.cons_append] at h'
    rw [mergeBlobs] at h h'
    split at h
    · cases h
    · next e he =>
      rw [he] at h'
      exact ih _ _ h h'

/-- C73: a plan in the encoding of serde is read the same with any descriptors for which there is a pool
at all. -/
theorem C73_plain_json (j : JsonLib B D P) (extra : List B) (text : Str) (p : P) (h : j.naive text = some p) :
    j.read extra text = some p ↔ ∃ pool, j.build extra = some pool := by
  unfold JsonLib.read JsonLib.parse
  cases hb : j.build extra with
  | none => simp
  | some pool => simp [h]

/-- C73: descriptors registered later take nothing away: what was read before is read as the same plan, if
there still is a pool.  Of the library, only that a larger pool reads what a smaller one reads is used. -/
theorem C73_more_descriptors (j : JsonLib B D P)
    (mono : ∀ fs gs text m, fs <+: gs → j.dynamic fs text = some m → j.dynamic gs text = some m) (a b : List B)
    (text : Str) (p : P) (h : j.read a text = some p) (hb : ∃ pool, j.build (a ++ b) = some pool) :
    j.read (a ++ b) text = some p := by
  obtain ⟨pool', hp'⟩ := hb
  unfold JsonLib.read at h ⊢
  rw [hp']
  cases hp : j.build a with
  | none => rw [hp] at h; cases h
  | some pool =>
    rw [hp] at h
    have hpre : pool <+: pool' := by
      unfold JsonLib.build at hp hp'
      cases h1 : mergedFiles j.decode j.core a with
      | none => rw [h1] at hp; cases hp
      | some fs =>
        cases h2 : mergedFiles j.decode j.core (a ++ b) with
        | none => rw [h2] at hp'; cases hp'
        | some gs =>
          rw [h1] at hp
          rw [h2] at hp'
          dsimp only at hp hp'
          split at hp
          · split at hp'
            · cases hp; cases hp'
              unfold mergedFiles at h1 h2
              split at h1
              · cases h1
              · next core hc =>
                rw [hc] at h2
                exact mergeBlobs_more j.decode a b _ _ _ _ h1 h2
            · cases hp'
          · cases hp
    unfold JsonLib.parse at h ⊢
    dsimp only at h ⊢
    cases hq : j.naive text with
    | some q => rw [hq] at h; exact h
    | none =>
      rw [hq] at h
      dsimp only at h ⊢
      cases hm : j.dynamic pool text with
      | none => rw [hm] at h; cases h
      | some m => rw [mono _ _ _ _ hpre hm]; rw [hm] at h; exact h

/-- C73: one blob that does not decode makes all JSON input fail, also a plan that needs no descriptor. -/
theorem C73_bad_blob (j : JsonLib B D P) (extra : List B) (b : B) (hb : b ∈ extra) (hd : j.decode b = none) (text : Str) :
    j.read extra text = none := by
  have : ∀ (l : List B), b ∈ l → ∀ seen files, mergeBlobs j.decode seen files l = none := by
    intro l
    induction l with
    | nil => intro h; cases h
    | cons x l ih =>
      intro h seen files
      rw [mergeBlobs]
      rcases List.mem_cons.1 h with rfl | h
      · rw [hd]
      · split
        · rfl
        · exact ih h _ _
  unfold JsonLib.read JsonLib.build mergedFiles
  cases j.decode j.core with
  | none => rfl
  | some files => simp only [this extra hb]

namespace JsonSample

/-- Blobs are lists of names; a type is known when its file is; plans are numbers.  Reading `@x` needs the
file `x`. -/
def lib : JsonLib (Option (List Str)) Unit Nat where
  decode b := b.map fun l => l.map fun n => ⟨n, ()⟩
  core := some [cs!"plan"]
  pool fs := !fs.isEmpty
  naive t := if t = cs!"1" then some 1 else none
  dynamic fs t :=
    match t with
    | '@' :: n => if fs.any (fun f => f.name == n) then some [2] else none
    | _ => none
  plan b := b.head?

end JsonSample

example : JsonSample.lib.read [] cs!"1" = some 1 ∧ JsonSample.lib.read [some [cs!"x"]] cs!"1" = some 1 ∧
    JsonSample.lib.read [] cs!"@x" = none ∧ JsonSample.lib.read [some [cs!"x"]] cs!"@x" = some 2 ∧
    JsonSample.lib.read [some [cs!"x"], none] cs!"1" = none := by decide

example : JsonSample.lib.read ([some [cs!"x"]] ++ [some [cs!"y"]]) cs!"@x" = some 2 := by
  refine C73_more_descriptors JsonSample.lib ?_ _ _ _ _ (by decide) ⟨_, rfl⟩
  rintro fs gs text m ⟨l, rfl⟩ h
  unfold JsonSample.lib at h ⊢
  dsimp only at h ⊢
  split at h
  · split at h
    · next hn => cases h; rw [if_pos]; simp only [List.any_append, hn, Bool.true_or]
    · cases h
  · cases h

end Verif
