import Verif.Proofs.ReparseRel
import Verif.Proofs.HazardsText
import Verif.Proofs.Canonical
/-!
# Plans that were read can be written
-/

namespace Verif

set_option autoImplicit false

open StoreSpec TextSpec RelSpec PlanSpec Grammar TreeSpec ChunkSpec SectionSpec

/-! ## Declarations and version -/

theorem trimEnd_subset {s : Str} {c : Char} (h : c ∈ trimEnd s) : c ∈ s := by
  obtain ⟨t, ht, -⟩ := dropEnd_eq isWs s
  rw [ht]
  exact List.mem_append_left _ h

theorem trim_subset {s : Str} {c : Char} (h : c ∈ trim s) : c ∈ s := by
  unfold trim at h
  have := trimEnd_subset h
  exact (List.dropWhile_sublist _).subset this

/-- A line without its line ending has no newline. -/
theorem physLines_flat {text l : Str} (h : l ∈ physLines text) : '\n' ∉ trimEnd l := by
  have key : ∀ (ls : List Str) (s : Str), physLines s = ls → ∀ l ∈ ls, '\n' ∉ trimEnd l := by
    intro ls
    induction ls with
    | nil => intro s _ l hl; cases hl
    | cons a ls ih =>
      intro s hs l hl
      obtain ⟨-, h2, h3⟩ := physLines_cons hs
      rcases List.mem_cons.1 hl with rfl | hl
      · rcases h3 with ⟨b, rfl, hb⟩ | ⟨-, hb, -⟩
        · rw [trimEnd_append_ws b ['\n'] (by simp; decide)]
          exact fun h => hb (trimEnd_subset h)
        · exact fun h => hb (trimEnd_subset h)
      · exact ih _ h2 l hl
  exact key _ text rfl l h

theorem parseU32_lt {s : Str} {n : Nat} (h : parseU32 s = some n) : n < 2 ^ 32 := by
  unfold parseU32 at h
  dsimp only at h
  split at h
  · next hh => cases h; exact hh.2.2
  · cases h

/-- What is certain of a version that was read: its texts are trimmed. -/
structure VersionRead (v : Version) : Prop where
  major : v.major < 2 ^ 32
  minor : v.minor < 2 ^ 32
  patch : v.patch < 2 ^ 32
  producer : '\n' ∉ v.producer ∧ trim v.producer = v.producer
  gitHash : '\n' ∉ v.gitHash ∧ trim v.gitHash = v.gitHash

theorem versionSays_read {v w : Version} {ls : List Str} (h : VersionSays v ls w) (hl : ∀ l ∈ ls, '\n' ∉ trimEnd l)
    (hv : VersionRead v) : VersionRead w := by
  induction h with
  | nil => exact hv
  | blank _ _ ih => exact ih (fun l hm => hl l (by simp [hm])) hv
  | @producer v w l k x ls he _ _ _ _ ih =>
    refine ih (fun l hm => hl l (by simp [hm])) ⟨hv.major, hv.minor, hv.patch, ⟨?_, trim_trim _⟩, hv.gitHash⟩
    intro hn
    have := hl l (by simp)
    rw [he] at this
    exact this (by simp [trim_subset hn])
  | @gitHash v w l k x ls he _ _ _ _ ih =>
    refine ih (fun l hm => hl l (by simp [hm])) ⟨hv.major, hv.minor, hv.patch, hv.producer, ⟨?_, trim_trim _⟩⟩
    intro hn
    have := hl l (by simp)
    rw [he] at this
    exact this (by simp [trim_subset hn])

theorem versionPart_read {rest r : List Str} {v : Option Version} (h : VersionPart rest r v)
    (hl : ∀ l ∈ r, '\n' ∉ trimEnd l) : ∀ x, v = some x → VersionRead x := by
  cases h with
  | none => intro x hx; cases hx
  | some _ _ hn hs =>
    intro x hx
    cases hx
    obtain ⟨a, b, c, -, -, -, -, h1, h2, h3, h4, h5⟩ := hn
    refine versionSays_read hs (fun l hm => hl l (by simp [hm]))
      ⟨parseU32_lt h1, parseU32_lt h2, parseU32_lt h3, ?_, ?_⟩
    · rw [h5]; exact ⟨by simp, rfl⟩
    · rw [h4]; exact ⟨by simp, rfl⟩

/-- A declaration that was read. -/
def OpRead : Op → Prop
  | .urn u a => a < 2 ^ 32 ∧ UrnText u
  | .ext k _ a n => a < 2 ^ 32 ∧ ∀ m, legalName k n = some m → DeclName k m
  | .unmapped => False

theorem funSig_not_u {n : Str} (h : FunSig n) : cs!"u!".isPrefixOf n = false := by
  have key : ∀ (i t : Str), Ident i → (∀ c, t.head? = some c → c = ':') → cs!"u!".isPrefixOf (i ++ t) = false := by
    rintro i t ⟨c, cs, rfl, hc, hcs⟩ ht
    cases cs with
    | nil =>
      cases t with
      | nil => simp [List.isPrefixOf]
      | cons d t =>
        have := ht d rfl
        subst this
        simp [List.isPrefixOf]
    | cons d cs =>
      have hd := hcs d (by simp)
      have : ('!' == d) = false := by
        rw [beq_eq_false_iff_ne]
        rintro rfl
        revert hd
        decide
      simp [List.isPrefixOf, this]
  cases h with
  | plain h => have := key _ [] h (by simp); rwa [List.append_nil] at this
  | colon h => exact key _ _ h (by simp)
  | sig h _ => rw [List.append_assoc]; exact key _ _ h (by simp)

theorem funSig_plain {n : Str} (h : FunSig n) (hc : ':' ∉ n) : isIdentifier n = true := by
  cases h with
  | plain h => exact ident_isIdentifier h
  | colon h => simp at hc
  | sig h _ => simp at hc

theorem declName_read {k : Kind} {n m : Str} (hn : FunSig n ∨ ∃ m, FunSig m ∧ n = cs!"u!" ++ m)
    (hc : k ≠ .function → ':' ∉ n) (hm : legalName k n = some m) : DeclName k m := by
  rcases hn with hn | ⟨b, hb, rfl⟩
  · have hu := funSig_not_u hn
    cases k with
    | function =>
      simp only [legalName, hu] at hm
      cases hm
      exact funSig_name hn
    | type =>
      simp only [legalName, hu] at hm
      cases hm
      exact funSig_plain hn (hc (by simp))
    | typeVariation =>
      simp only [legalName, hu] at hm
      cases hm
      exact funSig_plain hn (hc (by simp))
  · have hu : cs!"u!".isPrefixOf (cs!"u!" ++ b) = true := by simp [List.isPrefixOf]
    cases k with
    | function => simp only [legalName, hu, if_true] at hm; cases hm
    | typeVariation => simp only [legalName, hu, if_true] at hm; cases hm
    | type =>
      simp only [legalName, hu, if_true, Option.some.injEq] at hm
      have hm : b = m := hm
      subst hm
      exact funSig_plain hb (fun h => hc (by simp) (List.mem_append_right _ h))

theorem extSays_read {cur : Option (Option Kind)} {ls : List Str} {ops : List Op} (h : ExtSays cur ls ops)
    (hl : ∀ l ∈ ls, '\n' ∉ trimEnd l) : ∀ op ∈ ops, OpRead op := by
  induction h with
  | nil => intro op h; cases h
  | blank _ _ ih => exact ih fun l hm => hl l (by simp [hm])
  | urns _ _ ih => exact ih fun l hm => hl l (by simp [hm])
  | title _ _ ih => exact ih fun l hm => hl l (by simp [hm])
  | @urn l ls ops i a u x he hx ha _ ih =>
    intro op hop
    rcases List.mem_cons.1 hop with rfl | hop
    · obtain ⟨y, w, -, -, hne, hsp, rfl⟩ := hx
      have hnl := hl l (by simp)
      have hend := trimEnd_endClean l
      rw [he] at hnl hend
      refine ⟨ha.2.2, hne, hsp, fun h => hnl (by simp [h]), ?_⟩
      intro c hc
      refine hend c ?_
      rw [← List.append_assoc, List.getLast?_append, hc]
      rfl
    · exact ih (fun l hm => hl l (by simp [hm])) op hop
  | @decl k l ls ops i j a b n x he hx ha hb hc _ ih =>
    intro op hop
    rcases List.mem_cons.1 hop with rfl | hop
    · obtain ⟨_, _, _, _, _, -, -, -, -, -, hn, -⟩ := hx
      exact ⟨ha.2.2, fun m hm => declName_read hn hc hm⟩
    · exact ih (fun l hm => hl l (by simp [hm])) op hop

/-- Declarations that were read and accepted can be written. -/
theorem sound_of_read {ops : List Op} (ha : answers [] ops = []) (hr : ∀ op ∈ ops, OpRead op) : Sound (run ops) := by
  have hord := Store.ordered_run ops
  obtain ⟨hu, he⟩ := Store.run_spec ops
  have urnMem : ∀ {a : Nat} {u : Str}, (a, u) ∈ (run ops).urns ↔ Op.urn u a ∈ ops := by
    intro a u
    rw [← firstUrn_of_ok ha, ← hu a, OMap.find?_iff hord.1]
  have extMem : ∀ {a : Nat} {k : Kind} {u : Nat} {n : Str}, ((a, k), (u, n)) ∈ (run ops).exts ↔
      ∃ m, Op.ext k u a m ∈ ops ∧ legalName k m = some n := by
    intro a k u n
    rw [← firstExt_of_ok ha, ← he a k, OMap.find?_iff hord.2]
  refine ⟨?_, ?_, ?_⟩
  · rintro ⟨a, u⟩ hm
    exact hr _ (urnMem.1 hm)
  · rintro ⟨⟨a, k⟩, u, n⟩ hm
    obtain ⟨m, h1, h2⟩ := extMem.1 hm
    obtain ⟨h3, h4⟩ := hr _ h1
    exact ⟨h3, h4 n h2⟩
  · rintro ⟨⟨a, k⟩, u, n⟩ hm
    obtain ⟨m, h1, h2⟩ := extMem.1 hm
    obtain ⟨l1, l2, e⟩ := List.append_of_mem h1
    have ha' := ha
    rw [e, Store.answers_append] at ha'
    have h3 := (List.append_eq_nil_iff.1 ha').2
    have h4 : answer ([] ++ l1) (Op.ext k u a m) = none := by
      unfold answers at h3
      have := (List.append_eq_nil_iff.1 h3).1
      revert this
      cases answer ([] ++ l1) (Op.ext k u a m) <;> simp
    have h5 : ∃ v, firstUrn l1 u = some v := by
      simp only [answer, h2, List.nil_append] at h4
      revert h4
      rcases firstExt l1 a k with _ | ⟨_, _⟩ <;> rcases firstUrn l1 u with _ | v <;> simp
    obtain ⟨v, hv⟩ := h5
    refine ⟨v, urnMem.2 ?_⟩
    rw [← firstUrn_of_ok ha, e]
    unfold firstUrn at hv ⊢
    rw [List.findSome?_append, hv]
    rfl

/-! ## Trees -/

theorem widths_some (reg : Registry ExtArgs (List Nat)) (l : List Rel) :
    widths reg (l.map some) = l.map (width reg) := by
  induction l with
  | nil => simp [widths]
  | cons a l ih => simp [widths, ih]

variable [UTab] [FTab]

theorem plainRels_mem {env : Env} : ∀ {l : List (Option Rel)}, PlainRels env l → ∀ r, some r ∈ l → PlainRel env r
  | [], _, r, hr => by cases hr
  | none :: l, h, r, hr => by
    rw [PlainRels] at h
    rcases List.mem_cons.1 hr with hr | hr
    · cases hr
    · exact plainRels_mem h r hr
  | some a :: l, h, r, hr => by
    rw [PlainRels] at h
    rcases List.mem_cons.1 hr with hr | hr
    · cases hr; exact h.1
    · exact plainRels_mem h.2 r hr

mutual
theorem supported_of_node {env : Env} (hst : env.st.Ordered) (hs : Sound env.st) (t : RNode SLine SAddendum) (d : Nat)
    {r : Rel × Nat} (hl : Lines (listing d t)) (h : convNode env.st env.reg t = .ok r) (hp : PlainRel env r.1) :
    Supported env r.1 := by
  cases t with
  | mk line as kids =>
    unfold convNode at h
    have hmem : ∀ l, l ∈ listing d (.mk line as kids) ↔ l = (d, .relation line) ∨
        l ∈ as.map (fun a => (d + 1, LineNode.addendum a)) ∨ l ∈ listings (d + 1) kids := by
      intro l
      unfold listing
      simp only [List.cons_append, List.mem_cons, List.mem_append]
    obtain ⟨ks, h1, h⟩ := Res.bind_ok_iff.1 h
    obtain ⟨as', h2, h⟩ := Res.bind_ok_iff.1 h
    have hline := convLine_ok h
    obtain ⟨op, hx, har, -⟩ := hline.shape
    obtain ⟨⟨x, hx'⟩, -⟩ := hl _ ((hmem _).2 (.inl rfl))
    obtain ⟨r, w⟩ := r
    dsimp only at hx hp ⊢
    subst hx
    rw [PlainRel, widths_some] at hp
    cases hx' with
    | relation hx' =>
      refine .node op (ks.map (·.1)) (by simpa using har) ?_ (opOk_of_line hst hs hx' hline hp.1)
      intro r hr
      obtain ⟨k, hk, rfl⟩ := List.mem_map.1 hr
      exact supported_of_kids hst hs kids (d + 1) (fun l hm => hl l ((hmem l).2 (.inr (.inr hm)))) h1
        (fun k hk => plainRels_mem hp.2 _ (List.mem_map_of_mem (List.mem_map_of_mem hk))) k hk
theorem supported_of_kids {env : Env} (hst : env.st.Ordered) (hs : Sound env.st) (ts : List (RNode SLine SAddendum)) (d : Nat)
    {r : List (Rel × Nat)} (hl : Lines (listings d ts)) (h : convKids env.st env.reg ts = .ok r)
    (hp : ∀ k ∈ r, PlainRel env k.1) : ∀ k ∈ r, Supported env k.1 := by
  cases ts with
  | nil => cases h; intro k hk; cases hk
  | cons t ts =>
    have hmem : ∀ l, l ∈ listings d (t :: ts) ↔ l ∈ listing d t ∨ l ∈ listings d ts := by
      intro l
      conv => lhs; unfold listings
      rw [List.mem_append]
    unfold convKids at h
    obtain ⟨k, h1, h⟩ := Res.bind_ok_iff.1 h
    obtain ⟨ks, h2, h⟩ := Res.bind_ok_iff.1 h
    cases h
    intro k' hk'
    rcases List.mem_cons.1 hk' with rfl | hk'
    · exact supported_of_node hst hs t d (fun l hm => hl l ((hmem l).2 (.inl hm))) h1 (hp _ (by simp))
    · exact supported_of_kids hst hs ts d (fun l hm => hl l ((hmem l).2 (.inr hm))) h2
        (fun k hk => hp k (by simp [hk])) k' hk'
end

theorem topOk_of_conv {env : Env} (hst : env.st.Ordered) (hs : Sound env.st) (t : RNode SLine SAddendum) {r : PlanRel}
    (hl : Lines (listing 0 t)) (h : convPlanRel env.st env.reg t = .ok r) (hp : PlainTop env r) : TopOk env r := by
  unfold convPlanRel at h
  split at h
  · next names as kids =>
    split at h
    · cases h
    split at h
    · next k =>
      obtain ⟨x, h1, h⟩ := Res.bind_ok_iff.1 h
      cases h
      have hmem : ∀ l, l ∈ listing 1 k → l ∈ listing 0 (.mk (.root names) as [k]) := by
        intro l hm
        unfold listing
        simp only [List.cons_append, List.mem_cons, List.mem_append, listings, List.append_nil]
        exact .inr (.inr hm)
      exact ⟨hp.1, supported_of_node hst hs k 1 (fun l hm => hl l (hmem l hm)) h1 (hp.2 _ rfl)⟩
    · cases h
  · obtain ⟨x, h1, h⟩ := Res.bind_ok_iff.1 h
    cases h
    exact supported_of_node hst hs t 0 hl h1 hp

theorem topsOk_of_conv {env : Env} (hst : env.st.Ordered) (hs : Sound env.st) (ts : List (RNode SLine SAddendum)) :
    ∀ {r : List PlanRel}, Lines (listings 0 ts) → convPlanRels env.st env.reg ts = .ok r →
    (∀ x ∈ r, PlainTop env x) → ∀ x ∈ r, TopOk env x := by
  induction ts with
  | nil => intro r _ h _ x hx; cases h; cases hx
  | cons t ts ih =>
    intro r hl h hp x hx
    have hmem : ∀ l, l ∈ listings 0 (t :: ts) ↔ l ∈ listing 0 t ∨ l ∈ listings 0 ts := by
      intro l
      conv => lhs; unfold listings
      rw [List.mem_append]
    unfold convPlanRels at h
    obtain ⟨k, h1, h⟩ := Res.bind_ok_iff.1 h
    obtain ⟨ks, h2, h⟩ := Res.bind_ok_iff.1 h
    cases h
    rcases List.mem_cons.1 hx with rfl | hx
    · exact topOk_of_conv hst hs t (fun l hm => hl l ((hmem l).2 (.inl hm))) h1 (hp _ (by simp))
    · exact ih (fun l hm => hl l ((hmem l).2 (.inr hm))) h2 (fun x hx => hp x (by simp [hx])) x hx

/-- A plan that was read and is plain has a faithful text. -/
theorem planOk_of_parse {reg : Registry ExtArgs (List Nat)} {o : Opts} {text : Str} {p : Plan}
    (h : parsePlan reg text = .ok p) (hp : PlainPlan reg o p) :
    PlanOk reg o p ∧ ∀ x, p.version = some x → VersionRead x := by
  obtain ⟨ops, lines, tails, forest, hsays, ha, -, -, -, hlines, hc, hu, hd⟩ := parsePlan_built h
  obtain ⟨v, urns, decls, rels⟩ := p
  dsimp only at hu hd hc hsays ⊢
  obtain ⟨blanks, r1, r2, r3, hphys, -, hv, hx, hpl⟩ := hsays
  have hflat : ∀ l ∈ r1, '\n' ∉ trimEnd l := fun l hl => physLines_flat (text := text) (by rw [hphys]; exact List.mem_append_right _ hl)
  have hflat2 : ∀ l ∈ r2, '\n' ∉ trimEnd l := by
    cases hv with
    | none => exact hflat
    | some _ _ _ _ => intro l hl; exact hflat l (by simp [hl])
  have hread : ∀ op ∈ ops, OpRead op := by
    cases hx with
    | none => intro op h; cases h
    | some _ hs => exact extSays_read hs fun l hl => hflat2 l (by simp [hl])
  have hver := versionPart_read hv hflat
  have hsound := sound_of_read ha hread
  subst hu hd
  obtain ⟨g1, g2, -, -⟩ := history_export hsound v rels
  have hl : Lines lines := by
    cases hpl with
    | none => intro l hl; cases hl
    | some _ hsp => exact spelled_lines hsp
  rw [hlines] at hl
  unfold PlainPlan at hp
  dsimp only at hp
  rw [g1] at hp
  refine ⟨⟨?_, g2, by rw [g1]; exact hsound, ?_⟩, hver⟩
  · intro x hx
    have := hver x hx
    exact ⟨this.major, this.minor, this.patch, by rw [this.producer.2]; exact this.producer.1,
      by rw [this.gitHash.2]; exact this.gitHash.1⟩
  · dsimp only
    rw [g1]
    exact topsOk_of_conv (env := ⟨run ops, o, reg⟩) (Store.ordered_run ops) hsound _ hl hc hp

end Verif
