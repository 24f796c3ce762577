import Verif.Spec.Cli
/-!
# Lemmas on the command line tool and on descriptor merging
-/

namespace Verif

set_option autoImplicit false
variable {P O B D : Type}

/-- Both commands are: open, truncate, resolve, transfer. -/
def runOpened (c : Codec P O) (w : World) (cmd : Cmd) (src dst : Option Fmt) : Exit × World :=
  match getReader w cmd.input with
  | none => (.failure, w)
  | some r =>
    match getWriter w cmd.output with
    | none => (.failure, w)
    | some (s, w) =>
      match src with
      | none => (.failure, w)
      | some src =>
        match dst with
        | none => (.failure, w)
        | some dst => transfer c w r s src dst (cmd.options c)

def Cmd.src : Cmd → Option Fmt
  | .convert i _ s _ _ => resolveFmt s i
  | .validate _ _ => some .text

def Cmd.dst : Cmd → Option Fmt
  | .convert _ o _ d _ => resolveFmt d o
  | .validate _ _ => some .text

theorem runCli_eq (c : Codec P O) (w : World) (cmd : Cmd) : runCli c w cmd = runOpened c w cmd cmd.src cmd.dst := by
  cases cmd with
  | convert i o s d t =>
    simp only [runCli, runOpened, Cmd.src, Cmd.dst, Cmd.input, Cmd.output]
    cases getReader w i with
    | none => rfl
    | some r =>
      cases getWriter w o with
      | none => rfl
      | some sw =>
        obtain ⟨s', w'⟩ := sw
        cases resolveFmt s i with
        | none => rfl
        | some f =>
          cases resolveFmt d o with
          | none => rfl
          | some g => cases t <;> rfl
  | validate i o => rfl

theorem reads_iff (cmd : Cmd) (f : Fmt) : cmd.Reads f ↔ cmd.src = some f := by
  constructor
  · intro h
    cases h with
    | explicit => rfl
    | extension i o d t f h => simpa [Cmd.src, resolveFmt] using h
    | validate => rfl
  · cases cmd with
    | convert i o s d t =>
      cases s with
      | some s => intro h; simp [Cmd.src, resolveFmt] at h; subst h; exact .explicit ..
      | none => intro h; simp [Cmd.src, resolveFmt] at h; exact .extension _ _ _ _ _ h
    | validate i o => intro h; simp [Cmd.src] at h; subst h; exact .validate ..

theorem writes_iff (cmd : Cmd) (f : Fmt) : cmd.Writes f ↔ cmd.dst = some f := by
  constructor
  · intro h
    cases h with
    | explicit => rfl
    | extension i o d t f h => simpa [Cmd.dst, resolveFmt] using h
    | validate => rfl
  · cases cmd with
    | convert i o s d t =>
      cases d with
      | some s => intro h; simp [Cmd.dst, resolveFmt] at h; subst h; exact .explicit ..
      | none => intro h; simp [Cmd.dst, resolveFmt] at h; exact .extension _ _ _ _ _ h
    | validate i o => intro h; simp [Cmd.dst] at h; subst h; exact .validate ..

theorem readsAs_iff (c : Codec P O) (b : Bytes) (f : Fmt) (p : P) : ReadsAs c b f p ↔ c.read f b = .ok p := by
  constructor
  · intro h; cases h <;> simp_all [Codec.read]
  · cases f <;> simp only [Codec.read]
    · exact fun h => .text _ h
    all_goals
      intro h
      split at h
      · injection h with h; subst h; constructor; assumption
      · cases h

/-- Where the output goes. -/
def Cmd.sink (w : World) (cmd : Cmd) : Stream := if cmd.output = cs!"-" then .std else .file (w.file cmd.output)

/-- The world after the output was opened. -/
def opened (w : World) (cmd : Cmd) : World := if cmd.output = cs!"-" then w else w.set (w.file cmd.output) []

theorem open_cases (w : World) (cmd : Cmd) :
    (Opens w cmd ∧ ∃ r, getReader w cmd.input = some r ∧ getWriter w cmd.output = some (cmd.sink w, opened w cmd) ∧
      (opened w cmd).read r = inputBytes w cmd) ∨
    (¬ Opens w cmd ∧ (getReader w cmd.input = none ∨ getWriter w cmd.output = none)) := by
  unfold Opens getReader getWriter Cmd.sink opened inputBytes Cmd.InPlace
  by_cases hi : cmd.input = cs!"-" <;> by_cases ho : cmd.output = cs!"-"
  · simp [hi, ho, World.read]
  · by_cases hc : w.creatable cmd.output = true
    · simp [hi, ho, hc, World.read, World.set]
    · simp [hi, ho, hc]
  · by_cases hc : w.openable cmd.input = true ∧ (w.content (w.file cmd.input)).isSome = true
    · simp [hi, ho, hc.1, hc.2, World.read]
    · right
      simp only [hi, ho, hc, if_true, if_false, Bool.and_eq_true, false_or, true_or, and_true, not_false_eq_true]
  · by_cases hc : w.openable cmd.input = true ∧ (w.content (w.file cmd.input)).isSome = true
    · by_cases hc' : w.creatable cmd.output = true
      · left
        simp only [hi, ho, hc.1, hc.2, hc', World.read, World.set, if_false, Bool.and_self, if_true, or_true,
          and_self, true_and, ne_eq, not_false_eq_true]
        refine ⟨_, rfl, ?_⟩
        simp only [World.read]
        by_cases he : w.file cmd.input = w.file cmd.output <;> simp [he]
      · right; simp [hi, ho, hc']
    · right
      simp only [hi, ho, hc, if_true, if_false, Bool.and_eq_true, false_or, false_and, not_false_eq_true, true_and]
      simp

theorem write_cases (w : World) (cmd : Cmd) (b : Bytes) :
    (Fits w cmd b ∧ ((opened w cmd).write (cmd.sink w) b).1 = true ∧
      outputContent ((opened w cmd).write (cmd.sink w) b).2 cmd = some (before w cmd ++ b)) ∨
    (¬ Fits w cmd b ∧ ((opened w cmd).write (cmd.sink w) b).1 = false ∧
      ∃ n, outputContent ((opened w cmd).write (cmd.sink w) b).2 cmd = some (before w cmd ++ b.take n)) := by
  unfold Fits opened Cmd.sink outputContent before
  by_cases ho : cmd.output = cs!"-"
  · simp only [ho, if_true, World.write]
    cases hb : w.stdoutBroken with
    | none => left; simp
    | some n =>
      by_cases hn : b.length ≤ n
      · left; simp [hn]
      · right; simp only [hn, if_false]; exact ⟨by simp [hn], trivial, n, rfl⟩
  · simp only [ho, if_false, World.write, World.set]
    cases hb : w.broken (w.file cmd.output) with
    | none => left; simp
    | some n =>
      by_cases hn : b.length ≤ n
      · left; simp [hn]
      · right
        simp only [hn, if_false]
        exact ⟨by simp [hn], trivial, n, by simp⟩

/-- Writing a plan in a format that renders it. -/
theorem codec_write (c : Codec P O) (w : World) (cmd : Cmd) (o : O) (p : P) (f : Fmt) (b : Bytes) (errs : List Str)
    (h : Renders c o p f b errs) :
    (c.write o f p (opened w cmd) (cmd.sink w)).2 = ((opened w cmd).write (cmd.sink w) b).2 ∧
    ((c.write o f p (opened w cmd) (cmd.sink w)).1 = .success ↔
      ((opened w cmd).write (cmd.sink w) b).1 = true ∧ errs = []) ∧
    ((c.write o f p (opened w cmd) (cmd.sink w)).1 = .failure ↔
      ¬ (((opened w cmd).write (cmd.sink w) b).1 = true ∧ errs = [])) := by
  cases h with
  | text =>
    simp only [Codec.write]
    generalize (opened w cmd).write (cmd.sink w) (c.writeText o p).1 = x
    obtain ⟨x, w'⟩ := x
    cases (c.writeText o p).2 <;> cases x <;> simp
  | json b h =>
    simp only [Codec.write, h]
    generalize (opened w cmd).write (cmd.sink w) b = x
    obtain ⟨x, w'⟩ := x
    cases x <;> simp
  | yaml b h =>
    simp only [Codec.write, h]
    generalize (opened w cmd).write (cmd.sink w) b = x
    obtain ⟨x, w'⟩ := x
    cases x <;> simp
  | protobuf =>
    simp only [Codec.write]
    generalize (opened w cmd).write (cmd.sink w) (c.writeProto p) = x
    obtain ⟨x, w'⟩ := x
    cases x <;> simp

/-- A format renders, or the write fails without touching anything. -/
theorem renders_or (c : Codec P O) (o : O) (p : P) (f : Fmt) :
    (∃ b errs, Renders c o p f b errs) ∨
    ((∀ b errs, ¬ Renders c o p f b errs) ∧ ∀ w s, c.write o f p w s = (.failure, w)) := by
  cases f with
  | text => exact Or.inl ⟨_, _, .text⟩
  | json =>
    cases h : c.writeJson p with
    | some b => exact Or.inl ⟨_, _, .json _ h⟩
    | none => refine Or.inr ⟨?_, by intro w s; simp [Codec.write, h]⟩; intro b e h'; cases h'; simp_all
  | yaml =>
    cases h : c.writeYaml p with
    | some b => exact Or.inl ⟨_, _, .yaml _ h⟩
    | none => refine Or.inr ⟨?_, by intro w s; simp [Codec.write, h]⟩; intro b e h'; cases h'; simp_all
  | protobuf => exact Or.inl ⟨_, _, .protobuf⟩

theorem renders_unique (c : Codec P O) (o : O) (p : P) (f : Fmt) (b b' : Bytes) (e e' : List Str)
    (h : Renders c o p f b e) (h' : Renders c o p f b' e') : b = b' ∧ e = e' := by
  cases h <;> cases h' <;> simp_all

/-- A run that has something to write. -/
theorem run_yields (c : Codec P O) (w : World) (cmd : Cmd) (b : Bytes) (errs : List Str) (h : Yields c w cmd b errs) :
    (runCli c w cmd).2 = ((opened w cmd).write (cmd.sink w) b).2 ∧
    ((runCli c w cmd).1 = .success ↔ ((opened w cmd).write (cmd.sink w) b).1 = true ∧ errs = []) ∧
    ((runCli c w cmd).1 = .failure ↔ ¬ (((opened w cmd).write (cmd.sink w) b).1 = true ∧ errs = [])) := by
  obtain ⟨ho, src, dst, p, h1, h2, h3, h4⟩ := h
  rcases open_cases w cmd with ⟨_, r, hr, hw, hread⟩ | ⟨hn, _⟩
  · have : runCli c w cmd = c.write (cmd.options c) dst p (opened w cmd) (cmd.sink w) := by
      rw [runCli_eq, runOpened, hr, hw, (reads_iff cmd src).1 h1, (writes_iff cmd dst).1 h2]
      simp only [transfer, hread, (readsAs_iff c _ src p).1 h3]
    rw [this]
    exact codec_write c w cmd _ p dst b errs h4
  · exact absurd ho hn

/-- A run that has nothing to write. -/
theorem run_no_yield (c : Codec P O) (w : World) (cmd : Cmd) (h : ∀ b errs, ¬ Yields c w cmd b errs) :
    (runCli c w cmd).1 ≠ .success ∧ (runCli c w cmd).2 = if Opens w cmd then opened w cmd else w := by
  rcases open_cases w cmd with ⟨ho, r, hr, hw, hread⟩ | ⟨hn, hno⟩
  · rw [runCli_eq, runOpened, hr, hw, if_pos ho]
    cases hs : cmd.src with
    | none => simp
    | some src =>
      cases hd : cmd.dst with
      | none => simp
      | some dst =>
        simp only [transfer, hread]
        cases hp : c.read src (inputBytes w cmd) with
        | err e => simp
        | panic => simp
        | ok p =>
          rcases renders_or c (cmd.options c) p dst with ⟨b, errs, hb⟩ | ⟨_, hb⟩
          · exact absurd ⟨ho, src, dst, p, (reads_iff cmd src).2 hs, (writes_iff cmd dst).2 hd,
              (readsAs_iff c _ src p).2 hp, hb⟩ (h b errs)
          · simp [hb]
  · rw [runCli_eq, runOpened, if_neg hn]
    rcases hno with hno | hno
    · simp [hno]
    · rw [hno]
      cases getReader w cmd.input <;> simp

/-! ### Paths -/

theorem splitOn_ne_nil (d : Char) (s : Str) : splitOn d s ≠ [] := by
  cases s with
  | nil => simp [splitOn]
  | cons c s => rw [splitOn]; split <;> try split
                all_goals simp

theorem splitOn_append (d : Char) (a b : Str) : splitOn d (a ++ d :: b) = splitOn d a ++ splitOn d b := by
  induction a with
  | nil => simp [splitOn]
  | cons c a ih =>
    rw [List.cons_append, splitOn, splitOn]
    by_cases hc : c = d
    · simp [hc, ih]
    · simp only [hc, if_false, ih]
      cases h : splitOn d a with
      | nil => exact absurd h (splitOn_ne_nil d a)
      | cons p ps => simp

theorem splitOn_of_not_mem (d : Char) (s : Str) (h : d ∉ s) : splitOn d s = [s] := by
  induction s with
  | nil => rfl
  | cons c s ih =>
    rw [splitOn, ih (fun h' => h (List.mem_cons_of_mem _ h'))]
    simp [show c ≠ d from fun h' => h (by simp [h'])]

theorem lastDot_append (a b : Str) (hb : '.' ∉ b) : lastDot (a ++ '.' :: b) = some (a, b) := by
  have hn : ∀ b : Str, '.' ∉ b → lastDot b = none := by
    intro b
    induction b with
    | nil => intro _; rfl
    | cons c b ih =>
      intro h
      rw [lastDot, ih (fun h' => h (List.mem_cons_of_mem _ h'))]
      simp [show c ≠ '.' from fun h' => h (by simp [h'])]
  induction a with
  | nil => simp [lastDot, hn b hb]
  | cons c a ih => rw [List.cons_append, lastDot, ih]

theorem extension_eq (dir stem ext : Str) (hd : dir = [] ∨ ∃ d, dir = d ++ cs!"/") (hs : stem ≠ []) (hs' : '/' ∉ stem)
    (he : ext ≠ []) (he' : '/' ∉ ext) (hdot : '.' ∉ ext) : extension (dir ++ stem ++ '.' :: ext) = some ext := by
  have hname : '/' ∉ stem ++ '.' :: ext := by simp [hs', he']
  have hcut : ∃ pre, splitOn '/' (dir ++ stem ++ '.' :: ext) = pre ++ [stem ++ '.' :: ext] := by
    rcases hd with rfl | ⟨d, rfl⟩
    · exact ⟨[], by rw [List.nil_append, splitOn_of_not_mem _ _ hname]; rfl⟩
    · refine ⟨splitOn '/' d, ?_⟩
      have : d ++ cs!"/" ++ stem ++ '.' :: ext = d ++ '/' :: (stem ++ '.' :: ext) := by simp
      rw [this, splitOn_append, splitOn_of_not_mem _ _ hname]
  obtain ⟨pre, hpre⟩ := hcut
  have hlen : 2 < (stem ++ '.' :: ext).length ∨ (stem ++ '.' :: ext).length = 2 := by
    have h1 := List.length_pos_iff.2 hs
    have h2 := List.length_pos_iff.2 he
    simp; omega
  have h1 := List.length_pos_iff.2 hs
  have h2 := List.length_pos_iff.2 he
  have hkeep : (!((stem ++ '.' :: ext).isEmpty || (stem ++ '.' :: ext) == cs!".")) = true := by
    have : stem ++ '.' :: ext ≠ cs!"." := by
      intro h; have := congrArg List.length h; simp at this; omega
    simp [this, hs]
  have hup : stem ++ '.' :: ext ≠ cs!".." := by
    intro h; have := congrArg List.length h; simp at this; omega
  have hf : fileName (dir ++ stem ++ '.' :: ext) = some (stem ++ '.' :: ext) := by
    rw [fileName, hpre, List.filter_append, List.filter_cons_of_pos (by simpa using hkeep)]
    simp [hup]
  rw [extension, hf]
  simp only [lastDot_append stem ext hdot]
  cases stem with
  | nil => exact absurd rfl hs
  | cons c s => rfl

/-! ### Descriptors -/

theorem FirstFiles.mem {l k : List (FileDesc D)} (h : FirstFiles l k) {f : FileDesc D} (hf : f ∈ k) : f ∈ l := by
  induction h with
  | nil => cases hf
  | keep l k g _ _ ih => simp at hf ⊢; exact hf.imp ih id
  | drop l k g _ _ ih => simp; exact Or.inl (ih hf)

theorem FirstFiles.names {l k : List (FileDesc D)} (h : FirstFiles l k) (n : Str) :
    n ∈ k.map (·.name) ↔ n ∈ l.map (·.name) := by
  induction h with
  | nil => rfl
  | keep l k f _ _ ih => simp only [List.map_append, List.mem_append, ih]
  | drop l k f _ hg ih =>
    simp only [List.map_append, List.mem_append, ih]
    obtain ⟨g, hg, he⟩ := hg
    constructor
    · exact Or.inl
    · rintro (h | h)
      · exact h
      · simp at h; rw [h]; exact List.mem_map.2 ⟨g, hg, he⟩

theorem FirstFiles.self {l : List (FileDesc D)} (h : (l.map (·.name)).Nodup) : FirstFiles l l := by
  have key : ∀ (n : Nat) (l : List (FileDesc D)), l.length = n → (l.map (·.name)).Nodup → FirstFiles l l := by
    intro n
    induction n with
    | zero => intro l hl _; rw [List.length_eq_zero_iff.1 hl]; exact .nil
    | succ n ih =>
      intro l hl hnd
      have hne : l ≠ [] := by rintro rfl; simp at hl
      rw [← List.dropLast_concat_getLast hne] at hnd ⊢
      rw [List.map_append, List.nodup_append] at hnd
      refine .keep _ _ _ (ih _ (by simp [hl]) hnd.1) ?_
      intro g hg he
      exact hnd.2.2 g.name (List.mem_map.2 ⟨g, hg, rfl⟩) (l.getLast hne).name (by simp) he
  exact key _ l rfl h

theorem mergeFiles_first (seen : List Str) (files all extra : List (FileDesc D))
    (hseen : ∀ n, n ∈ seen ↔ n ∈ all.map (·.name)) (h : FirstFiles all files) :
    (∀ n, n ∈ (mergeFiles seen files extra).1 ↔ n ∈ (all ++ extra).map (·.name)) ∧
    FirstFiles (all ++ extra) (mergeFiles seen files extra).2 := by
  induction extra generalizing seen files all with
  | nil => simp only [mergeFiles, List.append_nil]; exact ⟨hseen, h⟩
  | cons f extra ih =>
    rw [mergeFiles]
    have happ : all ++ f :: extra = all ++ [f] ++ extra := by simp
    rw [happ]
    by_cases hc : f.name ∈ seen
    · rw [if_pos (by simpa using hc)]
      obtain ⟨g, hg, he⟩ := List.mem_map.1 ((hseen _).1 hc)
      refine ih seen files (all ++ [f]) ?_ (.drop _ _ _ h ⟨g, hg, he⟩)
      intro n
      rw [hseen]
      simp only [List.map_append, List.mem_append]
      constructor
      · exact Or.inl
      · rintro (h | h)
        · exact h
        · simp at h; rw [h]; exact List.mem_map.2 ⟨g, hg, he⟩
    · rw [if_neg (by simpa using hc)]
      refine ih (f.name :: seen) (files ++ [f]) (all ++ [f]) ?_ (.keep _ _ _ h ?_)
      · intro n
        rw [List.mem_cons, hseen]
        simp only [List.map_append, List.mem_append, List.map_cons, List.map_nil, List.mem_singleton]
        exact Or.comm
      · intro g hg he
        exact hc ((hseen _).2 (List.mem_map.2 ⟨g, hg, he⟩))

theorem mergeBlobs_first (decode : B → Option (List (FileDesc D))) (seen : List Str) (files all : List (FileDesc D))
    (bs : List B) (hseen : ∀ n, n ∈ seen ↔ n ∈ all.map (·.name)) (h : FirstFiles all files) :
    (∀ out, mergeBlobs decode seen files bs = some out →
      ∃ fs, bs.mapM decode = some fs ∧ FirstFiles (all ++ fs.flatten) out) ∧
    (mergeBlobs decode seen files bs = none ↔ ∃ b ∈ bs, decode b = none) := by
  induction bs generalizing seen files all with
  | nil =>
    constructor
    · intro out ho; simp [mergeBlobs] at ho; subst ho; exact ⟨[], rfl, by simpa using h⟩
    · simp [mergeBlobs]
  | cons b bs ih =>
    cases hb : decode b with
    | none => simp [mergeBlobs, hb]
    | some extra =>
      have hm := mergeFiles_first seen files all extra hseen h
      have := ih _ _ (all ++ extra) hm.1 hm.2
      simp only [mergeBlobs, hb]
      constructor
      · intro out ho
        obtain ⟨fs, h1, h2⟩ := this.1 out ho
        refine ⟨extra :: fs, by simp [List.mapM_cons, hb, h1], ?_⟩
        rw [List.flatten_cons, ← List.append_assoc]; exact h2
      · rw [this.2]; simp [hb]

end Verif
