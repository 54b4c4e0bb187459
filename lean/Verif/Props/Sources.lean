import Verif.Props.Parsed
/-!
# C41: embedded source code
-/
namespace Bindgen
open Spec

/-- The last source given under this name. -/
def Spec.LastSource (srcs : List (Str × Str)) (n s : Str) : Prop :=
  ∃ a b, srcs = a ++ (n, s) :: b ∧ ∀ x ∈ b, x.1 ≠ n

theorem lookup_first {l : List (Str × Str)} {n s : Str} :
    l.lookup n = some s ↔ ∃ a b, l = a ++ (n, s) :: b ∧ ∀ x ∈ a, x.1 ≠ n := by
  induction l with
  | nil => simp
  | cons x l ih =>
    obtain ⟨k, v⟩ := x
    by_cases hk : n = k
    · subst hk
      rw [List.lookup_cons_self]
      constructor
      · intro h
        cases h
        exact ⟨[], l, rfl, by simp⟩
      · rintro ⟨a, b, h, ha⟩
        cases a with
        | nil => cases h; rfl
        | cons y a => cases h; exact absurd rfl (ha (n, v) (by simp))
    · have : (n == k) = false := by simpa using hk
      rw [List.lookup_cons, this]
      simp only
      rw [ih]
      constructor
      · rintro ⟨a, b, rfl, ha⟩
        refine ⟨(k, v) :: a, b, rfl, fun x hx => ?_⟩
        rcases List.mem_cons.mp hx with rfl | hx
        · exact fun h => hk h.symm
        · exact ha x hx
      · rintro ⟨a, b, h, ha⟩
        cases a with
        | nil => cases h; exact absurd rfl hk
        | cons y a => cases h; exact ⟨a, b, rfl, fun x hx => ha x (by simp [hx])⟩

theorem lookup_last {srcs : List (Str × Str)} {n s : Str} : srcs.reverse.lookup n = some s ↔ LastSource srcs n s := by
  rw [lookup_first]
  constructor
  · rintro ⟨a, b, h, ha⟩
    refine ⟨b.reverse, a.reverse, ?_, fun x hx => ha x (by simpa using hx)⟩
    have := congrArg List.reverse h
    simpa using this
  · rintro ⟨a, b, rfl, hb⟩
    exact ⟨b.reverse, a.reverse, by simp, fun x hx => hb x (by simpa using hx)⟩

theorem fromPy_colon (E : Env) (s : Str) : (Path.fromPy E s).leadingColon = false := by
  unfold Path.fromPy
  split <;> rfl

/-- The names of the modules at the top level have no leading colon and at most one segment. -/
theorem canonical_top {E : Env} {W : World} {mods out : List Module} (h : canonicalize E W mods = .ok out)
    (hc : ∀ m ∈ mods, m.name.leadingColon = false) :
    ∀ m ∈ out, m.name.leadingColon = false ∧ m.name.segs.length ≤ 1 := by
  intro m hm
  obtain ⟨k, hk, hx⟩ := (C35_modules E W mods out h [m.name]).mp ⟨m, hm, rfl⟩
  rcases hx with ⟨ns', he, x, hx⟩ | ⟨i, hi, he⟩
  · cases hpk : packages k.name with
    | nil =>
      rw [hpk, List.nil_append] at he
      subst he
      rw [← hx.2, List.mem_singleton.mp hx.1]
      refine ⟨hc k hk, ?_⟩
      have : (packages k.name).length = 0 := by rw [hpk]; rfl
      simp only [packages, List.length_map, List.length_range] at this
      omega
    | cons q qs =>
      rw [hpk, List.cons_append] at he
      injection he with h1 h2
      cases ns' with
      | nil => cases hx
      | cons a as => exact absurd h2.symm (by simp)
  · have hl : ((packages k.name).take (i + 1)).length = 1 := by rw [← he]; rfl
    rw [List.length_take, Nat.min_eq_left (by omega)] at hl
    have hi0 : i = 0 := by omega
    subst hi0
    have : (packages k.name)[0]? = some m.name := by
      have := congrArg (fun l => l[0]?) he
      simpa using this.symm
    unfold packages at this
    rw [List.getElem?_map] at this
    cases hr : (List.range (k.name.segs.length - 1))[0]? with
    | none => rw [hr] at this; cases this
    | some j =>
      rw [hr] at this
      have hj : j = 0 := by
        rw [List.getElem?_range] at hr
        · exact (Option.some.inj hr).symm
        · by_contra hlt
          rw [List.getElem?_eq_none (by simpa using hlt)] at hr
          cases hr
      have := Option.some.inj this
      rw [← this, hj]
      exact ⟨rfl, by simp only [List.length_take]; omega⟩

theorem prepared_top {E : Env} {W : World} {fuel : Nat} {c : Codegen} {out : List Module} (h : c.prepare E W fuel = .ok out)
    (hp : ∀ m ∈ c.modules, Parsed E c.cfg W m) : ∀ m ∈ out, m.name.leadingColon = false ∧ m.name.segs.length ≤ 1 := by
  obtain ⟨mods, h1, h⟩ := Res.bind_ok h
  obtain ⟨cn, h2, h⟩ := Res.bind_ok h
  cases h
  have key := canonical_top h2 fun m hm => by
    obtain ⟨fuel, id, hpm⟩ := withDeps_parsed hp h1 m hm
    cases fuel with
    | zero => exact absurd hpm parse_zero
    | succ fuel =>
      obtain ⟨p⟩ := parse_parts hpm
      rw [p.name]
      exact fromPy_colon _ _
  intro m hm
  obtain ⟨k, hk, rfl⟩ := List.mem_map.mp hm
  have := key k hk
  cases hl : c.embedded.reverse.lookup k.name.toRs with
  | none => simpa only [hl] using this
  | some s => simpa only [hl] using this

theorem content_no_embed {E : Env} {cfg : Config} {imp : Str → Bool} {tops : List Module} {ts : List Path} {m : Module}
    {out : List Item} (h : m.content E cfg imp tops ts = .ok out) (s n file : Str) : .embed s n file ∉ out := by
  intro hx
  obtain ⟨p⟩ := content_parts h
  generalize he : Item.embed s n file = x at hx
  cases content_from p hx <;> cases he

theorem mods_no_embed {E : Env} {cfg : Config} {imp : Str → Bool} {tops : List Module} {ts : List Path} {m : Module}
    {it : Item} (q : GenParts E cfg imp tops ts m it) (s n file : Str) : .embed s n file ∉ q.mods := by
  intro hx
  rcases ifOn_ok q.modsOk with ⟨-, h⟩ | ⟨-, h⟩
  · obtain ⟨k, -, hg⟩ := traverse_mem h hx
    obtain ⟨q'⟩ := generate_parts hg
    exact absurd q'.item (by simp)
  · rw [h] at hx; cases hx

/-- **C41**, no other module gets one: a generated module with the function that embeds source code is at the top level, the
source is the last one given under the name that is embedded, and the generated module has that name; there is one such
function in it. -/
theorem C41_only (E : Env) (W : World) (fuel : Nat) (cfg : Config) (srcs : List (Str × Str)) (c : Codegen)
    (items : List Item) (hb : Built E W fuel cfg srcs c) (h : c.generate E W fuel = .ok items)
    (allow : Bool) (doc : Option Str) (i : Str) (inner : List Item) (hx : Within (.mod allow doc i inner) items)
    (s n file : Str) (he : .embed s n file ∈ inner) :
    LastSource srcs n s ∧ file = n ++ c!"/__init__.py" ∧ (IsIdent E n → i = n) ∧
      (∃ allow' doc' rest, .mod allow' doc' i (.embed s n file :: rest) ∈ items) ∧
      ∃ rest, inner = .embed s n file :: rest ∧ ∀ s' n' file', .embed s' n' file' ∉ rest := by
  have hbo := built_ok hb
  have hcfg := hbo.config
  subst hcfg
  obtain ⟨out, hprep, hgen⟩ := generate_prepared h
  obtain ⟨out', hprep', hfrom⟩ := generate_from h
  rw [hprep] at hprep'
  cases hprep'
  obtain ⟨M, hM, q, hin⟩ := from_mod (hfrom _ hx)
  obtain ⟨hs1, hs2⟩ := prepared_source hprep hbo.parsed
  have hmem : .embed s n file ∈ embedItems M.name M.source := by
    rw [hin] at he
    simp only [List.mem_append] at he
    rcases he with (he | he) | he
    · exact he
    · exact absurd he (content_no_embed q.contentOk s n file)
    · exact absurd he (mods_no_embed q s n file)
  cases hsrc : M.source with
  | none => rw [hsrc] at hmem; cases hmem
  | some s0 =>
    have htop : M ∈ out := by
      cases hM with
      | top h => exact h
      | sub h h' => rw [hs2 _ h _ h'] at hsrc; cases hsrc
    rw [hsrc, embedItems, List.mem_singleton] at hmem
    injection hmem with e1 e2 e3
    subst e1 e2 e3
    rw [hs1 M htop, hbo.embedded] at hsrc
    refine ⟨lookup_last.mp hsrc, rfl, ?_, ?_, ?_⟩
    · intro hid
      obtain ⟨hlc, hlen⟩ := prepared_top hprep hbo.parsed M htop
      have hlast := q.lastOk
      have hi := q.identOk
      have hq := q.item
      injection hq with _ _ hq _
      cases hsegs : M.name.segs with
      | nil => rw [hsegs] at hlast; cases hlast
      | cons a l =>
        rw [hsegs] at hlen hlast
        have hl : l = [] := by cases l with
          | nil => rfl
          | cons b l => simp at hlen
        subst hl
        have ha : q.last = a := (Option.some.inj hlast).symm
        have hrs : M.name.toRs = a.rs := by
          unfold Path.toRs
          rw [hlc, hsegs]
          rfl
        rw [hrs] at hid
        rw [ha, Ident.toSyn, synIdent_of_isIdent hid] at hi
        split at hi
        · cases hi
        · rw [hq, hrs, ← Option.some.inj hi]
    · obtain ⟨it, hit, hg⟩ := traverse_mem' hgen htop
      obtain ⟨q'⟩ := generate_parts hg
      have h1 := q.identOk
      have h2 := q'.identOk
      have h3 := q.lastOk
      rw [q'.lastOk] at h3
      rw [Option.some.inj h3, h1] at h2
      have hq := q.item
      injection hq with _ _ hq _
      rw [hq, Option.some.inj h2]
      have hq' := q'.item
      rw [hs1 M htop, hbo.embedded, hsrc] at hq'
      rw [hq'] at hit
      exact ⟨_, _, _, hit⟩
    · rw [hs1 M htop, hbo.embedded, hsrc] at hin
      refine ⟨q.content ++ q.mods, hin, ?_⟩
      intro s' n' file' hm
      rcases List.mem_append.mp hm with hm | hm
      · exact content_no_embed q.contentOk _ _ _ hm
      · exact mods_no_embed q _ _ _ hm

/-- A module made from source code has the name it is given (the source does not assign `__name__`). -/
def Spec.KeepsName (W : World) : Prop :=
  ∀ source name id m, W.fromCode source name = some id → W.get? id = some m → m.name = some name

theorem built_sources {E : Env} {W : World} {fuel : Nat} {cfg : Config} {srcs : List (Str × Str)} {c : Codegen}
    (h : Built E W fuel cfg srcs c) : ∀ x ∈ srcs, ∃ id m, W.fromCode x.2 x.1 = some id ∧
      Module.parse E cfg W fuel id = .ok m ∧ m ∈ c.modules := by
  have step : ∀ {c c' : Codegen} {id : Nat}, c.module E W fuel id = .ok c' → ∀ m ∈ c.modules, m ∈ c'.modules := by
    intro c c' id h m hm
    obtain ⟨_, -, rfl⟩ := module_ok h
    simp [hm]
  have stepN : ∀ {c c' : Codegen} {n : Str}, c.moduleName E W fuel n = .ok c' → ∀ m ∈ c.modules, m ∈ c'.modules := by
    intro c c' n h
    obtain ⟨id, -, h⟩ := Res.bind_ok h
    exact step h
  have mono : ∀ {srcs : List (Str × Str)} {c c' : Codegen}, (∀ m ∈ c.modules, m ∈ c'.modules) →
      (∀ x ∈ srcs, ∃ id m, W.fromCode x.2 x.1 = some id ∧ Module.parse E cfg W fuel id = .ok m ∧ m ∈ c.modules) →
      ∀ x ∈ srcs, ∃ id m, W.fromCode x.2 x.1 = some id ∧ Module.parse E cfg W fuel id = .ok m ∧ m ∈ c'.modules := by
    intro srcs c c' hm h x hx
    obtain ⟨id, m, h1, h2, h3⟩ := h x hx
    exact ⟨id, m, h1, h2, hm m h3⟩
  induction h with
  | new => simp
  | module id _ h ih => exact mono (step h) ih
  | moduleName n _ h ih => exact mono (stepN h) ih
  | moduleFromStr source name hb h ih =>
    obtain ⟨id, m, h1, h2, rfl⟩ := moduleFromStr_ok h
    rw [(built_ok hb).config] at h2
    intro x hx
    rcases List.mem_append.mp hx with hx | hx
    · exact mono (fun m hm => by simp [hm]) ih x hx
    · rw [List.mem_singleton] at hx
      subst hx
      exact ⟨id, m, h1, h2, by simp⟩
  | addModules ids _ h ih =>
    rename_i c _ _
    refine mono (foldRes_inv (P := fun (d : Codegen) => ∀ m ∈ c.modules, m ∈ d.modules) _
      (fun _ _ _ _ hd hs m hm => step hs m (hd m hm)) h (fun m hm => hm)) ih
  | moduleNames ns _ h ih =>
    rename_i c _ _
    refine mono (foldRes_inv (P := fun (d : Codegen) => ∀ m ∈ c.modules, m ∈ d.modules) _
      (fun _ _ _ _ hd hs m hm => stepN hs m (hd m hm)) h (fun m hm => hm)) ih

/-- A module given as source code gets, at the top level, the function that embeds the last source given under its name.
Missing: dotted names and Rust keywords, for which the function is not generated (`C41_dotted_counterexample`,
`C41_keyword_counterexample`), and sources that rename the module. -/
theorem C41_embedded_partial (E : Env) (W : World) (hW : KeepsName W) (fuel : Nat) (cfg : Config) (srcs : List (Str × Str))
    (c : Codegen) (items : List Item) (hb : Built E W fuel cfg srcs c) (h : c.generate E W fuel = .ok items)
    (n s : Str) (hn : IsIdent E n) (hk : n ∉ keywords) (hs : LastSource srcs n s) :
    ∃ allow doc rest, .mod allow doc n (.embed s n (n ++ c!"/__init__.py") :: rest) ∈ items := by
  have hbo := built_ok hb
  have hcfg := hbo.config
  subst hcfg
  have hk : n ∉ rustKeywords := fun h => hk ((keywords_iff n).mpr h)
  obtain ⟨out, hprep, hgen⟩ := generate_prepared h
  obtain ⟨hs1, -⟩ := prepared_source hprep hbo.parsed
  obtain ⟨id, m, h1, h2, hm⟩ := built_sources hb (n, s) (by obtain ⟨a, b, rfl, -⟩ := hs; simp)
  have hname : m.name = ⟨false, [⟨n⟩]⟩ := by
    cases fuel with
    | zero => exact absurd h2 parse_zero
    | succ fuel =>
      obtain ⟨p⟩ := parse_parts h2
      have hnm := hW _ _ _ _ h1 p.get
      rw [p.pmName] at hnm
      rw [p.name, Option.some.inj hnm]
      have := fromPy_dotted E 0 (segs := [n]) (by simp) (by
        intro x hx
        rw [List.mem_singleton] at hx
        subst hx
        refine ⟨hn.ne_nil, fun hd => ?_, ?_, fun hs => hk (hs ▸ by decide)⟩
        · have := hn.continue _ hd
          rw [E.xidContinue_ascii _ (by decide)] at this
          exact absurd this (by decide)
        · rintro ⟨r, rfl⟩
          exact hn.no_hash (by simp))
      simpa [dotted, Str.join, fromPy_plain hn hk] using this
  obtain ⟨M, hM, -⟩ := prepared_node hprep hm
  rw [hname] at hM
  have hM : M ∈ out ∧ M.name = ⟨false, [⟨n⟩]⟩ := hM
  obtain ⟨hM, hMn⟩ := hM
  have hrs : M.name.toRs = n := by rw [hMn]; rfl
  obtain ⟨it, hit, hg⟩ := traverse_mem' hgen hM
  obtain ⟨q⟩ := generate_parts hg
  have hq := q.item
  rw [hs1 M hM, hbo.embedded, hrs, lookup_last.mpr hs] at hq
  have hlast := q.lastOk
  have hid := q.identOk
  rw [hMn] at hlast
  have hlast : q.last = ⟨n⟩ := (Option.some.inj hlast).symm
  rw [hlast, Ident.toSyn, synIdent_plain hn hk] at hid
  rw [← Option.some.inj hid, embedItems, hrs] at hq
  rw [hq] at hit
  exact ⟨_, _, _, hit⟩

theorem embed_in_mod {s n file : Str} {items : List Item} (h : Within (.embed s n file) items)
    (ht : .embed s n file ∉ items) : ∃ allow doc i inner, Within (.mod allow doc i inner) items ∧ .embed s n file ∈ inner := by
  induction h with
  | top h => exact absurd h ht
  | sub hm hx ih =>
    rename_i items inner allow doc i
    by_cases hi : .embed s n file ∈ inner
    · exact ⟨allow, doc, i, inner, .top hm, hi⟩
    · obtain ⟨a, d, j, inn, h1, h2⟩ := ih hi
      exact ⟨a, d, j, inn, .sub hm h1, h2⟩

/-- A world in which the sources of `a`, `box` and `a.b` run, and `a.b` has a parent `a`. -/
def exSourceWorld : World where
  mods := [{ name := some c!"a" }, { name := some c!"box" }, { name := some c!"a.b" }]
  importMod n := if n = c!"a" then some 0 else if n = c!"box" then some 1 else if n = c!"a.b" then some 2 else none
  fromCode _ n := if n = c!"a" then some 0 else if n = c!"box" then some 1 else if n = c!"a.b" then some 2 else none

theorem exSourceWorld_keepsName : KeepsName exSourceWorld := by
  intro source name id m h hm
  have h : (if name = c!"a" then some 0 else if name = c!"box" then some 1 else if name = c!"a.b" then some 2 else none)
    = some id := h
  split at h
  · rename_i hn; cases h; cases hm; rw [hn]
  · split at h
    · rename_i hn; cases h; cases hm; rw [hn]
    · split at h
      · rename_i hn; cases h; cases hm; rw [hn]
      · cases h

/-- The names of the top level modules, each followed by the sources, names and files embedded in it. -/
def exSources (items : List Item) : List (List Str) :=
  items.map fun (x : Item) => match x with
    | .mod _ _ i inner => i :: inner.flatMap fun (y : Item) => match y with
      | .embed s n f => [s, n, f]
      | _ => []
    | _ => []

/-- The engine after two sources for `a`. -/
def exTwice : Res Codegen :=
  (Codegen.new {}).moduleFromStr exEnv exSourceWorld 5 c!"x = 1" c!"a" >>=
    fun c => c.moduleFromStr exEnv exSourceWorld 5 c!"x = 2" c!"a"

/-- The engine after one source. -/
def exOnce (n : Str) : Res Codegen := (Codegen.new {}).moduleFromStr exEnv exSourceWorld 5 c!"x = 1" n

/-- The second source of `a` wins. -/
example : KeepsName exSourceWorld ∧ IsIdent exEnv c!"a" ∧ c!"a" ∉ keywords ∧
    LastSource [(c!"a", c!"x = 1"), (c!"a", c!"x = 2")] c!"a" c!"x = 2" ∧
    ∃ c items, Built exEnv exSourceWorld 5 {} [(c!"a", c!"x = 1"), (c!"a", c!"x = 2")] c ∧
      c.generate exEnv exSourceWorld 5 = .ok items ∧
      exSources items = [[c!"a", c!"x = 2", c!"a", c!"a/__init__.py"]] := by
  refine ⟨exSourceWorld_keepsName, ⟨'a', [], rfl, by decide, by decide⟩, by decide, ⟨[(c!"a", c!"x = 1")], [], rfl, by simp⟩, ?_⟩
  have hrun : (exTwice >>= fun c => c.generate exEnv exSourceWorld 5).map exSources =
      .ok [[c!"a", c!"x = 2", c!"a", c!"a/__init__.py"]] := by decide +kernel
  cases h : exTwice with
  | error e => rw [h] at hrun; cases hrun
  | ok c =>
    have h' := h
    obtain ⟨c1, h1, h2⟩ := Res.bind_ok h'
    rw [h, Res.ok_bind] at hrun
    cases h3 : c.generate exEnv exSourceWorld 5 with
    | error e => rw [h3] at hrun; cases hrun
    | ok items =>
      rw [h3] at hrun
      exact ⟨c, items, .moduleFromStr _ _ (.moduleFromStr _ _ .new h1) h2, h3, Except.ok.inj hrun⟩

/-- **C41** fails for a module named like a Rust keyword: the bindings of `box` do not embed its source. -/
theorem C41_keyword_counterexample :
    (exOnce c!"box" >>= fun c => c.generate exEnv exSourceWorld 5).map exSources = .ok [[c!"r#box"]] := by decide +kernel

/-- **C41** fails for a dotted name: neither `a` nor `a.b` embeds the source of `a.b`. -/
theorem C41_dotted_counterexample :
    ∃ c items, Built exEnv exSourceWorld 5 {} [(c!"a.b", c!"x = 1")] c ∧ c.generate exEnv exSourceWorld 5 = .ok items ∧
      exSources items = [[c!"a"]] ∧ ∀ s n file, ¬ Within (.embed s n file) items := by
  have hrun : (exOnce c!"a.b" >>= fun c => c.generate exEnv exSourceWorld 5).map exSources = .ok [[c!"a"]] := by decide +kernel
  cases h : exOnce c!"a.b" with
  | error e => rw [h] at hrun; cases hrun
  | ok c =>
    rw [h, Res.ok_bind] at hrun
    cases h3 : c.generate exEnv exSourceWorld 5 with
    | error e => rw [h3] at hrun; cases hrun
    | ok items =>
      rw [h3] at hrun
      have hb : Built exEnv exSourceWorld 5 {} [(c!"a.b", c!"x = 1")] c := .moduleFromStr _ _ .new h
      have hr := Except.ok.inj hrun
      refine ⟨c, items, hb, h3, hr, fun s n file hw => ?_⟩
      obtain ⟨allow, doc, i, inner, hm, he⟩ := embed_in_mod hw fun hx => by
        obtain ⟨out, -, hg⟩ := generate_prepared h3
        obtain ⟨M, -, hg⟩ := traverse_mem hg hx
        obtain ⟨q⟩ := generate_parts hg
        exact absurd q.item (by simp)
      obtain ⟨-, -, -, ⟨a, d, rest, hmem⟩, -⟩ := C41_only _ _ _ _ _ _ _ hb h3 _ _ _ _ hm _ _ _ he
      have := List.mem_map_of_mem (f := fun (x : Item) => match x with
        | .mod _ _ i inner => i :: inner.flatMap fun (y : Item) => match y with
          | .embed s n f => [s, n, f]
          | _ => []
        | _ => []) hmem
      have hr : _ = _ := hr
      unfold exSources at hr
      rw [hr] at this
      simp at this

end Bindgen
