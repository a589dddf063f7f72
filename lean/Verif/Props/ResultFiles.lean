import Mathlib.Data.List.Nodup
import Verif.Model.ResultFiles
import Verif.Py.DictLemmas
import Verif.Props.Loading

/-!
# C126: what is written to files is what is loaded from them
-/

namespace TFMA
namespace ResultFiles

open Slicer

variable {ρ κ : Type}

/-! ### specification -/

/-- No file of the directory has a name that begins with `pre`. -/
def Fresh (pre : Name) (dir : Dir ρ κ) : Prop := ∀ f ∈ dir, ¬ pre <+: f.1

/-- The shards of an output: at least one, with different names. -/
def Sharded (shards : List (Name × List ρ)) : Prop := shards ≠ [] ∧ (shards.map Prod.fst).Nodup

/-- Everything in the shards. -/
def recordsIn (shards : List (Name × List ρ)) : List ρ := (shards.map Prod.snd).flatten

/-- The names of the four outputs and of the configuration. -/
def outputNames : List Name :=
  ["metrics".toList, "plots".toList, "attributions".toList, "validations".toList, "eval_config".toList]

/-! ### lemmas -/

private theorem writeFiles_fresh (files : List (Name × File ρ κ)) (dir : Dir ρ κ)
    (hn : (files.map Prod.fst).Nodup) (hf : ∀ f ∈ files, f.1 ∉ Dict.keys dir) : writeFiles dir files = dir ++ files := by
  have hset : ∀ (d : Dir ρ κ) (k : Name) (v : File ρ κ), k ∉ Dict.keys d → Dict.set d k v = d ++ [(k, v)] := by
    intro d k v h
    induction d with
    | nil => rfl
    | cons p d ih =>
      simp only [Dict.keys, List.map_cons, List.mem_cons, not_or] at h
      simp only [Dict.set]
      rw [if_neg (Ne.symm h.1)]
      rw [ih (by simpa [Dict.keys] using h.2)]; rfl
  unfold writeFiles
  induction files generalizing dir with
  | nil => simp
  | cons f files ih =>
    simp only [List.map_cons, List.nodup_cons] at hn
    rw [List.foldl_cons, hset dir f.1 f.2 (hf f (by simp)), ih _ hn.2]
    · simp
    · intro g hg
      have h1 := hf g (by simp [hg])
      simp only [Dict.keys, List.map_append, List.map_cons, List.map_nil, List.mem_append, List.mem_singleton, not_or]
      refine ⟨h1, ?_⟩
      intro e
      exact hn.1 (e ▸ List.mem_map_of_mem hg)

private theorem isMatch_iff (pre suf name : Name) : isMatch pre suf name = true ↔ ∃ mid, name = pre ++ mid ++ suf := by
  unfold isMatch
  simp only [Bool.and_eq_true, List.isPrefixOf_iff_prefix, List.isSuffixOf_iff_suffix, decide_eq_true_eq]
  constructor
  · rintro ⟨⟨⟨a, ha⟩, ⟨b, hb⟩⟩, hl⟩
    subst ha
    simp only [List.length_append] at hl
    have : suf <:+ a := by
      refine List.suffix_of_suffix_length_le (l₃ := pre ++ a) ⟨b, hb⟩ ⟨pre, rfl⟩ (by omega)
    obtain ⟨m, rfl⟩ := this
    exact ⟨m, by simp⟩
  · rintro ⟨mid, rfl⟩
    refine ⟨⟨⟨mid ++ suf, by simp⟩, ⟨pre ++ mid, by simp⟩⟩, by simp only [List.length_append]; omega⟩

private theorem isMatch_prefix {pre suf name : Name} (h : isMatch pre suf name = true) : pre <+: name := by
  obtain ⟨mid, rfl⟩ := (isMatch_iff _ _ _).1 h
  exact ⟨mid ++ suf, by simp⟩

private theorem glob_fresh {pre : Name} {dir : Dir ρ κ} (h : Fresh pre dir) (suf : Name) : glob dir pre suf = [] := by
  unfold glob
  rw [List.filter_eq_nil_iff]
  intro f hf hm
  exact h f hf (isMatch_prefix hm)

private theorem suffixOf_supported {fmt : String} (h : fmt ∈ supported) : suffixOf fmt = '.' :: fmt.toList := by
  simp only [supported, List.mem_cons, List.not_mem_nil, or_false] at h
  rcases h with rfl | rfl <;> rfl

private theorem glob_output (pre : Name) {fmt : String} (h : fmt ∈ supported) (shards : List (Name × List ρ)) :
    glob (outputFiles (κ := κ) pre fmt shards) pre (suffixOf fmt) = outputFiles pre fmt shards := by
  unfold glob
  rw [List.filter_eq_self]
  intro f hf
  obtain ⟨s, _, rfl⟩ := List.mem_map.1 hf
  rw [suffixOf_supported h]
  exact (isMatch_iff _ _ _).2 ⟨s.1, rfl⟩

private theorem read_encoded {fmt : String} (h : fmt ∈ supported) (files : List (Name × File ρ κ))
    (shards : List (Name × List ρ)) (hne : files ≠ [])
    (hf : files.map Prod.snd = shards.map fun s => encode fmt s.2) : rawValues fmt files = .ok (recordsIn shards) := by
  simp only [supported, List.mem_cons, List.not_mem_nil, or_false] at h
  rcases h with rfl | rfl
  · have hr : readParquet files = .ok (recordsIn shards) := by
      clear hne
      induction files generalizing shards with
      | nil => cases shards with
        | nil => rfl
        | cons s l => simp at hf
      | cons f files ih => cases shards with
        | nil => simp at hf
        | cons s l =>
          rcases f with ⟨n, v⟩
          simp only [List.map_cons, List.cons.injEq, encode, if_true] at hf
          obtain ⟨rfl, hf⟩ := hf
          simp [readParquet, ih l hf, Except.map, recordsIn]
    unfold rawValues
    rw [if_pos rfl, if_neg (by simpa using hne), hr]
  · have hr : readTfrecord files = .ok (recordsIn shards) := by
      clear hne
      induction files generalizing shards with
      | nil => cases shards with
        | nil => rfl
        | cons s l => simp at hf
      | cons f files ih => cases shards with
        | nil => simp at hf
        | cons s l =>
          rcases f with ⟨n, v⟩
          have henc : (encode "tfrecord" s.2 : File ρ κ) = .tfrecord s.2 := rfl
          simp only [List.map_cons, List.cons.injEq, henc] at hf
          obtain ⟨rfl, hf⟩ := hf
          simp [readTfrecord, ih l hf, Except.map, recordsIn]
    unfold rawValues
    rw [if_neg (by decide), if_pos (by decide), hr]

private theorem perm_map_inv {β γ : Type} (g : β → γ) {l l' : List γ} (h : l.Perm l') :
    ∀ s : List β, l' = s.map g → ∃ s' : List β, s'.Perm s ∧ l = s'.map g := by
  induction h with
  | nil => intro s hs; exact ⟨s, .refl _, hs⟩
  | cons x _ ih =>
    intro s hs
    cases s with
    | nil => simp at hs
    | cons b s =>
      simp only [List.map_cons, List.cons.injEq] at hs
      obtain ⟨s', h1, h2⟩ := ih s hs.2
      exact ⟨b :: s', h1.cons b, by simp [hs.1, h2]⟩
  | swap x y l =>
    intro s hs
    match s, hs with
    | a :: b :: s, hs =>
      simp only [List.map_cons, List.cons.injEq] at hs
      exact ⟨b :: a :: s, .swap .., by simp [hs.1, hs.2.1, hs.2.2]⟩
    | [a], hs => simp at hs
    | [], hs => simp at hs
  | trans _ _ ih1 ih2 =>
    intro s hs
    obtain ⟨s1, h1, h2⟩ := ih2 s hs
    obtain ⟨s2, h3, h4⟩ := ih1 s1 h2
    exact ⟨s2, h3.trans h1, h4⟩

/-- If the files found are those of the output, its records are read. -/
private theorem read_perm {pre : Name} {fmt : String} (h : fmt ∈ supported) {shards : List (Name × List ρ)}
    (hne : shards ≠ []) {files : List (Name × File ρ κ)} (hp : files.Perm (outputFiles pre fmt shards)) :
    ∃ out, rawValues fmt files = .ok out ∧ out.Perm (recordsIn shards) := by
  obtain ⟨s', h1, h2⟩ := perm_map_inv _ hp shards rfl
  refine ⟨recordsIn s', ?_, ?_⟩
  · refine read_encoded h files s' ?_ (by rw [h2]; simp [Function.comp_def])
    rw [h2]
    intro e
    rw [List.map_eq_nil_iff] at e
    rw [e] at h1
    exact hne (List.Perm.nil_eq h1).symm
  · unfold recordsIn
    exact (h1.map Prod.snd).flatten

private theorem find_perm {pre : Name} {fmt : String} (h : fmt ∈ supported) {shards : List (Name × List ρ)}
    (hne : shards ≠ []) {listing before after : Dir ρ κ} (hb : Fresh pre before) (ha : Fresh pre after)
    (hl : listing.Perm (before ++ outputFiles pre fmt shards ++ after)) :
    (findFiles listing pre fmt).Perm (outputFiles pre fmt shards) ∧
      (glob listing pre (suffixOf fmt)).Perm (outputFiles pre fmt shards) := by
  have hg : (glob listing pre (suffixOf fmt)).Perm (outputFiles pre fmt shards) := by
    have h1 : (glob listing pre (suffixOf fmt)).Perm
        (glob (before ++ outputFiles pre fmt shards ++ after) pre (suffixOf fmt)) := hl.filter _
    refine h1.trans (.of_eq ?_)
    have e : glob (before ++ outputFiles pre fmt shards ++ after) pre (suffixOf fmt) =
        glob before pre (suffixOf fmt) ++ glob (outputFiles pre fmt shards) pre (suffixOf fmt) ++
          glob after pre (suffixOf fmt) := by simp [glob]
    rw [e, glob_fresh hb, glob_fresh ha, glob_output pre h]
    simp
  refine ⟨?_, hg⟩
  unfold findFiles
  rw [if_neg]
  · exact hg
  · intro e
    rw [List.isEmpty_iff] at e
    rw [e] at hg
    have := hg.nil_eq
    unfold outputFiles at this
    exact hne (List.map_eq_nil_iff.1 this.symm)

private theorem names_nodup {pre : Name} {fmt : String} {shards : List (Name × List ρ)}
    (h : (shards.map Prod.fst).Nodup) : ((outputFiles (κ := κ) pre fmt shards).map Prod.fst).Nodup := by
  have e : (outputFiles (κ := κ) pre fmt shards).map Prod.fst =
      (shards.map Prod.fst).map fun m => pre ++ m ++ '.' :: fmt.toList := by
    simp [outputFiles, Function.comp_def]
  rw [e]
  refine h.map ?_
  intro a b hab
  simpa using hab

private theorem output_prefix {pre : Name} {fmt : String} {shards : List (Name × List ρ)} :
    ∀ f ∈ outputFiles (κ := κ) pre fmt shards, pre <+: f.1 := by
  intro f hf
  obtain ⟨s, _, rfl⟩ := List.mem_map.1 hf
  exact ⟨s.1 ++ '.' :: fmt.toList, by simp⟩

private theorem write_ok {dir : Dir ρ κ} {pre : Name} {fmt : String} {shards : List (Name × List ρ)}
    (hf : fmt ∈ supported) (hs : (shards.map Prod.fst).Nodup) (hd : Fresh pre dir) :
    writeOutput dir pre fmt shards = .ok (dir ++ outputFiles pre fmt shards) := by
  unfold writeOutput
  rw [if_pos hf, writeFiles_fresh _ _ (names_nodup hs)]
  intro f hfm hk
  obtain ⟨g, hg, hge⟩ := List.mem_map.1 hk
  exact hd g hg (hge ▸ output_prefix f hfm)

/-! ### the theorems -/

/-- **C126 (one output).**  An output written in a supported format to a directory without files of its name is loaded
from it: exactly the records written, whatever the number of shards, and in whatever order the files are listed. -/
theorem C126_round_trip {dir : Dir ρ κ} {pre : Name} {fmt : String} {shards : List (Name × List ρ)}
    (hf : fmt ∈ supported) (hs : Sharded shards) (hd : Fresh pre dir) :
    ∃ dir', writeOutput dir pre fmt shards = .ok dir' ∧ ∀ listing : Dir ρ κ, listing.Perm dir' →
      ∃ out, loadRecords listing pre fmt = .ok out ∧ out.Perm (recordsIn shards) := by
  refine ⟨_, write_ok hf hs.2 hd, fun listing hl => ?_⟩
  have := find_perm hf hs.1 hd (after := []) (by intro f hf; cases hf) (by simpa using hl)
  exact read_perm hf hs.1 this.1

/-- **C126 (formats).**  Any other format is refused by the writer. -/
theorem C126_format_refused (dir : Dir ρ κ) (pre : Name) (fmt : String) (shards : List (Name × List ρ))
    (hf : fmt ∉ supported) : writeOutput dir pre fmt shards = .error .valueError := by
  unfold writeOutput
  rw [if_neg hf]

private theorem names_apart {a b n : Name} (ha : a ∈ outputNames) (hb : b ∈ outputNames) (hne : a ≠ b) (h : a <+: n) :
    ¬ b <+: n := by
  intro h2
  have key : ∀ a ∈ outputNames, ∀ b ∈ outputNames, a ≠ b → ¬ a <+: b := by decide
  rcases List.prefix_or_prefix_of_prefix h h2 with h3 | h3
  · exact key a ha b hb hne h3
  · exact key b hb a ha (Ne.symm hne) h3

private theorem fresh_append {pre : Name} {d e : Dir ρ κ} (h1 : Fresh pre d) (h2 : Fresh pre e) : Fresh pre (d ++ e) := by
  intro f hf
  rcases List.mem_append.1 hf with h | h
  · exact h1 f h
  · exact h2 f h

private theorem fresh_output {a b : Name} (ha : a ∈ outputNames) (hb : b ∈ outputNames) (hne : a ≠ b) {fmt : String}
    {shards : List (Name × List ρ)} : Fresh b (outputFiles (κ := κ) a fmt shards) := fun f hf =>
  names_apart ha hb hne (output_prefix f hf)

/-- **C126 (a whole run).**  Let a run write its configuration and its outputs, with the default names and in a supported
format, to a directory that has no file beginning with one of these names.  Then each loader finds exactly what was
written under its own name: the metrics, the plots and the attributions, the verdict, and the configuration with the
locations given. -/
theorem C126_run {version : String} (hv : version ≠ "") {a : ConfigArgs κ} (hdis : "eval_config" ∉ a.disabled)
    (hfmt : a.outputFileFormat = "json") (hname : a.filename = none) {fmt : String} (hf : fmt ∈ supported)
    {o : Outputs ρ} (hm : Sharded o.metrics) (hp : Sharded o.plots) (hat : Sharded o.attributions) {dir : Dir ρ κ}
    (hw : dir.WF) (hd : ∀ n ∈ outputNames, Fresh n dir) :
    ∃ dir', writeRun version a fmt o dir = .ok dir' ∧ ∀ listing : Dir ρ κ, listing.Perm dir' →
      (∃ out, loadRecords listing "metrics".toList fmt = .ok out ∧ out.Perm (recordsIn o.metrics)) ∧
      (∃ out, loadRecords listing "plots".toList fmt = .ok out ∧ out.Perm (recordsIn o.plots)) ∧
      (∃ out, loadRecords listing "attributions".toList fmt = .ok out ∧ out.Perm (recordsIn o.attributions)) ∧
      loadValidation listing "validations".toList fmt = .ok o.validation ∧
      loadConfig listing "json" none = .ok (some (evalRun version a)) := by
  have m1 : "metrics".toList ∈ outputNames := by decide
  have m2 : "plots".toList ∈ outputNames := by decide
  have m3 : "attributions".toList ∈ outputNames := by decide
  have m4 : "validations".toList ∈ outputNames := by decide
  have m5 : "eval_config".toList ∈ outputNames := by decide
  have hcn : configName a.outputFileFormat a.filename = "eval_config".toList ++ '.' :: "json".toList := by
    rw [hfmt, hname]; rfl
  have hsv : Sharded [(([] : Name), [o.validation])] := ⟨by simp, by simp⟩
  let C : Dir ρ κ := [("eval_config".toList ++ '.' :: "json".toList, .json (evalRun version a))]
  have hC : ∀ n ∈ outputNames, n ≠ "eval_config".toList → Fresh n C := by
    intro n hn hne f hfm
    rw [List.mem_singleton] at hfm
    subst hfm
    exact names_apart m5 hn (Ne.symm hne) ⟨_, rfl⟩
  have hcfg : writeConfig version a dir = .ok (dir ++ C) := by
    unfold writeConfig
    rw [if_neg hdis, if_neg (by simp [hfmt]), hcn, writeFiles_fresh _ _ (by simp)]
    intro f hfm hk
    rw [List.mem_singleton] at hfm
    subst hfm
    obtain ⟨g, hg, hge⟩ := List.mem_map.1 hk
    exact hd _ m5 g hg (hge ▸ ⟨_, rfl⟩)
  let M : Dir ρ κ := outputFiles "metrics".toList fmt o.metrics
  let P : Dir ρ κ := outputFiles "plots".toList fmt o.plots
  let A : Dir ρ κ := outputFiles "attributions".toList fmt o.attributions
  let V : Dir ρ κ := outputFiles "validations".toList fmt [([], [o.validation])]
  have f1 : Fresh "metrics".toList (dir ++ C) := fresh_append (hd _ m1) (hC _ m1 (by decide))
  have f2 : Fresh "plots".toList (dir ++ C ++ M) :=
    fresh_append (fresh_append (hd _ m2) (hC _ m2 (by decide))) (fresh_output m1 m2 (by decide))
  have f3 : Fresh "attributions".toList (dir ++ C ++ M ++ P) :=
    fresh_append (fresh_append (fresh_append (hd _ m3) (hC _ m3 (by decide))) (fresh_output m1 m3 (by decide)))
      (fresh_output m2 m3 (by decide))
  have f4 : Fresh "validations".toList (dir ++ C ++ M ++ P ++ A) :=
    fresh_append (fresh_append (fresh_append (fresh_append (hd _ m4) (hC _ m4 (by decide)))
      (fresh_output m1 m4 (by decide))) (fresh_output m2 m4 (by decide))) (fresh_output m3 m4 (by decide))
  refine ⟨dir ++ C ++ M ++ P ++ A ++ V, ?_, ?_⟩
  · unfold writeRun
    rw [hcfg]
    simp only
    rw [write_ok hf hm.2 f1]
    simp only
    rw [write_ok hf hp.2 f2]
    simp only
    rw [write_ok hf hat.2 f3]
    simp only
    rw [write_ok hf hsv.2 f4]
  · intro listing hl
    refine ⟨?_, ?_, ?_, ?_, ?_⟩
    · exact read_perm hf hm.1 (find_perm hf hm.1 f1 (after := P ++ A ++ V)
        (fresh_append (fresh_append (fresh_output m2 m1 (by decide)) (fresh_output m3 m1 (by decide)))
          (fresh_output m4 m1 (by decide))) (hl.trans (.of_eq (by simp only [List.append_assoc]; rfl)))).1
    · exact read_perm hf hp.1 (find_perm hf hp.1 f2 (after := A ++ V)
        (fresh_append (fresh_output m3 m2 (by decide)) (fresh_output m4 m2 (by decide)))
        (hl.trans (.of_eq (by simp only [List.append_assoc]; rfl)))).1
    · exact read_perm hf hat.1 (find_perm hf hat.1 f3 (after := V) (fresh_output m4 m3 (by decide))
        (hl.trans (.of_eq (by simp only [List.append_assoc]; rfl)))).1
    · obtain ⟨out, h1, h2⟩ := read_perm hf hsv.1 (find_perm hf hsv.1 f4 (after := []) (by intro f hf; cases hf)
        (hl.trans (.of_eq (by rw [List.append_nil])))).2
      have hout : out = [o.validation] := List.perm_singleton.1 (by simpa [recordsIn] using h2)
      unfold loadValidation
      rw [h1, hout]
    · have hk : Dict.keys (dir ++ C ++ M ++ P ++ A ++ V) = Dict.keys dir ++ Dict.keys C ++ Dict.keys M ++ Dict.keys P ++
          Dict.keys A ++ Dict.keys V := by simp [Dict.keys]
      have happ : ∀ {d e : Dir ρ κ} {pre : Name}, d.WF → e.WF → Fresh pre d → (∀ f ∈ e, pre <+: f.1) →
          Dict.WF (d ++ e) := by
        intro d e pre h1 h2 h3 h4
        unfold Dict.WF Dict.keys at *
        rw [List.map_append]
        refine List.nodup_append.2 ⟨h1, h2, ?_⟩
        intro x hx y hy hxy
        obtain ⟨f, hf, rfl⟩ := List.mem_map.1 hx
        obtain ⟨g, hg, rfl⟩ := List.mem_map.1 hy
        exact h3 f hf (hxy ▸ h4 g hg)
      have hw1 : Dict.WF (dir ++ C) := happ hw (by simp [Dict.WF, Dict.keys, C]) (hd _ m5) (by
        intro f hfm
        rw [List.mem_singleton] at hfm
        subst hfm
        exact ⟨_, rfl⟩)
      have hwf : Dict.WF (dir ++ C ++ M ++ P ++ A ++ V) :=
        happ (happ (happ (happ hw1 (names_nodup hm.2) f1 output_prefix) (names_nodup hp.2) f2 output_prefix)
          (names_nodup hat.2) f3 output_prefix) (names_nodup hsv.2) f4 output_prefix
      have hwl : Dict.WF listing := by
        unfold Dict.WF Dict.keys at *
        exact (hl.map Prod.fst).nodup_iff.2 hwf
      have hget : Dict.get? listing ("eval_config".toList ++ '.' :: "json".toList) = some (.json (evalRun version a)) := by
        refine Dict.get?_of_mem hwl (hl.mem_iff.2 ?_)
        simp [C]
      unfold loadConfig
      have : configName "json" none = "eval_config".toList ++ '.' :: "json".toList := rfl
      rw [this, hget]
      simp only
      rw [if_neg (by simpa [evalRun] using hv)]

private theorem write_get (files : List (Name × File ρ κ)) (dir : Dir ρ κ) (hn : (files.map Prod.fst).Nodup) (hw : dir.WF) :
    (writeFiles dir files).WF ∧ (∀ f ∈ files, Dict.get? (writeFiles dir files) f.1 = some f.2) ∧
      ∀ n, n ∉ files.map Prod.fst → Dict.get? (writeFiles dir files) n = Dict.get? dir n := by
  induction files generalizing dir with
  | nil => exact ⟨hw, by simp, fun _ _ => rfl⟩
  | cons f files ih =>
    simp only [List.map_cons, List.nodup_cons] at hn
    obtain ⟨h1, h2, h3⟩ := ih (Dict.set dir f.1 f.2) hn.2 (Dict.WF_set hw _ _)
    have e : writeFiles dir (f :: files) = writeFiles (Dict.set dir f.1 f.2) files := rfl
    rw [e]
    refine ⟨h1, ?_, ?_⟩
    · intro g hg
      rcases List.mem_cons.1 hg with rfl | hg
      · rw [h3 _ hn.1, Dict.get?_set_self]
      · exact h2 g hg
    · intro n hnn
      simp only [List.map_cons, List.mem_cons, not_or] at hnn
      rw [h3 n hnn.2, Dict.get?_set_ne _ _ (Ne.symm hnn.1)]

/-- **C126 (over earlier results).**  The directory may already have results of that name as long as the new files
replace all of them: then the new records are loaded and nothing of the earlier ones. -/
theorem C126_replaced_partial {dir : Dir ρ κ} (hw : dir.WF) {pre : Name} {fmt : String} {shards : List (Name × List ρ)}
    (hf : fmt ∈ supported) (hs : Sharded shards)
    (hd : ∀ f ∈ dir, pre <+: f.1 → ∃ s ∈ shards, f.1 = pre ++ s.1 ++ '.' :: fmt.toList) :
    ∃ dir', writeOutput dir pre fmt shards = .ok dir' ∧ ∀ listing : Dir ρ κ, listing.Perm dir' →
      ∃ out, loadRecords listing pre fmt = .ok out ∧ out.Perm (recordsIn shards) := by
  obtain ⟨h1, h2, h3⟩ := write_get (outputFiles (κ := κ) pre fmt shards) dir (names_nodup hs.2) hw
  refine ⟨_, by unfold writeOutput; rw [if_pos hf], fun listing hl => ?_⟩
  have hwl : Dict.WF listing := by
    unfold Dict.WF Dict.keys at *
    exact (hl.map Prod.fst).nodup_iff.2 h1
  have hg : (glob listing pre (suffixOf fmt)).Perm (outputFiles pre fmt shards) := by
    refine (List.perm_ext_iff_of_nodup ?_ ?_).2 ?_
    · exact (List.Nodup.of_map Prod.fst hwl).filter _
    · exact List.Nodup.of_map Prod.fst (names_nodup hs.2)
    · rintro ⟨n, x⟩
      unfold glob
      rw [List.mem_filter, hl.mem_iff, Dict.mem_iff_get? h1]
      constructor
      · rintro ⟨hx, hm⟩
        by_cases hin : n ∈ (outputFiles (κ := κ) pre fmt shards).map Prod.fst
        · obtain ⟨g, hg, rfl⟩ := List.mem_map.1 hin
          rw [h2 g hg] at hx
          cases hx
          exact hg
        · rw [h3 n hin] at hx
          obtain ⟨t, ht, hte⟩ := hd _ (Dict.mem_of_get? hx) (isMatch_prefix hm)
          refine absurd ?_ hin
          refine List.mem_map.2 ⟨_, List.mem_map.2 ⟨t, ht, rfl⟩, hte.symm⟩
      · intro hx
        refine ⟨h2 _ hx, ?_⟩
        obtain ⟨t, _, ht⟩ := List.mem_map.1 hx
        cases ht
        rw [suffixOf_supported hf]
        exact (isMatch_iff _ _ _).2 ⟨t.1, rfl⟩
  have hfind : findFiles listing pre fmt = glob listing pre (suffixOf fmt) := by
    unfold findFiles
    refine if_neg ?_
    intro he
    rw [List.isEmpty_iff] at he
    rw [he] at hg
    exact hs.1 (by simpa [outputFiles] using hg.symm.eq_nil)
  unfold loadRecords
  rw [hfind]
  exact read_perm hf hs.1 hg

/-- What Beam puts into the names of the only shard, and of two shards. -/
def oneShard : Name := "-00000-of-00001".toList
def firstOfTwo : Name := "-00000-of-00002".toList
def secondOfTwo : Name := "-00001-of-00002".toList

/-- **C126 fails over other earlier results:** if an earlier run wrote two shards and the next run writes one, the files
of both stay, and the metrics loaded are those of both runs, the old ones last or first as the files are listed. -/
theorem C126_earlier_fails (old1 old2 new : ρ) :
    ∃ d1 d2 : Dir ρ κ, writeOutput [] "metrics".toList "tfrecord" [(firstOfTwo, [old1]), (secondOfTwo, [old2])] = .ok d1 ∧
      writeOutput d1 "metrics".toList "tfrecord" [(oneShard, [new])] = .ok d2 ∧
      loadRecords d2 "metrics".toList "tfrecord" = .ok [old1, old2, new] ∧
      loadRecords d2.reverse "metrics".toList "tfrecord" = .ok [new, old2, old1] :=
  ⟨_, _, rfl, rfl, rfl, rfl⟩

/-- **C126 (files without the suffix).**  If no file has the suffix of the format, all files with the prefix are read
as files of that format, as versions wrote them that did not use suffixes. -/
theorem C126_without_suffix {pre : Name} {fmt : String} (hf : fmt ∈ supported) {listing : Dir ρ κ}
    (hne : ∃ f ∈ listing, pre <+: f.1) (hsuf : ∀ f ∈ listing, pre <+: f.1 → ¬ '.' :: fmt.toList <:+ f.1)
    (records : Name → List ρ) (hall : ∀ f ∈ listing, pre <+: f.1 → f.2 = encode fmt (records f.1)) :
    loadRecords listing pre fmt =
      .ok (((listing.filter fun f => pre.isPrefixOf f.1).map fun f => records f.1).flatten) := by
  have h1 : glob listing pre (suffixOf fmt) = [] := by
    unfold glob
    rw [List.filter_eq_nil_iff]
    intro f hfm hm
    refine hsuf f hfm (isMatch_prefix hm) ?_
    obtain ⟨mid, hmid⟩ := (isMatch_iff _ _ _).1 hm
    rw [hmid, suffixOf_supported hf]
    exact ⟨_, rfl⟩
  have h2 : glob listing pre [] = listing.filter fun f => pre.isPrefixOf f.1 := by
    unfold glob
    refine List.filter_congr fun f _ => ?_
    rw [Bool.eq_iff_iff, isMatch_iff, List.isPrefixOf_iff_prefix]
    constructor
    · rintro ⟨mid, h⟩; exact ⟨mid, by simpa using h.symm⟩
    · rintro ⟨mid, h⟩; exact ⟨mid, by simpa using h.symm⟩
  have h3 : findFiles listing pre fmt = listing.filter fun f => pre.isPrefixOf f.1 := by
    unfold findFiles
    simp only
    rw [h1, if_pos (by simp), h2]
  unfold loadRecords
  rw [h3]
  have := read_encoded hf (listing.filter fun f => pre.isPrefixOf f.1)
    ((listing.filter fun f => pre.isPrefixOf f.1).map fun f => (f.1, records f.1)) (by
      obtain ⟨f, hfm, hp⟩ := hne
      refine List.ne_nil_of_mem (List.mem_filter.2 ⟨hfm, List.isPrefixOf_iff_prefix.2 hp⟩)) (by
      rw [List.map_map]
      refine List.map_congr_left fun f hfm => ?_
      obtain ⟨h4, h5⟩ := List.mem_filter.1 hfm
      exact hall f h4 (List.isPrefixOf_iff_prefix.1 h5))
  rw [this]
  simp [recordsIn, Function.comp_def]

private theorem rawValues_default (files : List (Name × File ρ κ)) : rawValues "" files = rawValues "tfrecord" files := by
  simp [rawValues]

/-- **C126 (no format given).**  Loading without a format finds what was written as TFRecord, the metrics as well as the
verdict. -/
theorem C126_default_format {dir : Dir ρ κ} {pre : Name} {shards : List (Name × List ρ)} (hs : Sharded shards)
    (hd : Fresh pre dir) :
    ∃ dir', writeOutput dir pre "tfrecord" shards = .ok dir' ∧ ∀ listing : Dir ρ κ, listing.Perm dir' →
      (∃ out, loadRecords listing pre "" = .ok out ∧ out.Perm (recordsIn shards)) ∧
      ∀ r, recordsIn shards = [r] → loadValidation listing pre "" = .ok r := by
  have hf : "tfrecord" ∈ supported := by decide
  refine ⟨_, write_ok hf hs.2 hd, fun listing hl => ?_⟩
  have hall : ∀ f ∈ outputFiles (κ := κ) pre "tfrecord" shards, isMatch pre [] f.1 = true := fun f hfm => by
    obtain ⟨m, hm⟩ := output_prefix f hfm
    exact (isMatch_iff _ _ _).2 ⟨m, by simp [← hm]⟩
  have hg : (glob listing pre (suffixOf "")).Perm (outputFiles pre "tfrecord" shards) := by
    have h1 : (glob listing pre []).Perm (glob (dir ++ outputFiles pre "tfrecord" shards) pre []) := hl.filter _
    refine h1.trans (.of_eq ?_)
    have e : glob (dir ++ outputFiles (κ := κ) pre "tfrecord" shards) pre [] =
        glob dir pre [] ++ glob (outputFiles pre "tfrecord" shards) pre [] := by simp [glob]
    rw [e, glob_fresh hd]
    unfold glob
    rw [List.nil_append, List.filter_eq_self]
    exact fun f hfm => hall f hfm
  obtain ⟨out, h1, h2⟩ := read_perm hf hs.1 hg
  rw [← rawValues_default] at h1
  constructor
  · refine ⟨out, ?_, h2⟩
    have hfind : findFiles listing pre "" = glob listing pre (suffixOf "") := by
      unfold findFiles
      simp only
      split
      · rfl
      · rfl
    unfold loadRecords
    rw [hfind, h1]
  · intro r hr
    rw [hr, List.perm_singleton] at h2
    unfold loadValidation
    rw [h1, h2]

/-- **C126 (one verdict).**  A verdict is loaded exactly if one was written; several verdicts, or none in the files found,
are an error. -/
theorem C126_one_verdict {dir : Dir ρ κ} {pre : Name} {fmt : String} {shards : List (Name × List ρ)}
    (hf : fmt ∈ supported) (hs : Sharded shards) (hd : Fresh pre dir) :
    ∃ dir', writeOutput dir pre fmt shards = .ok dir' ∧ ∀ listing : Dir ρ κ, listing.Perm dir' →
      (∀ r, recordsIn shards = [r] → loadValidation listing pre fmt = .ok r) ∧
      ((recordsIn shards).length ≠ 1 → loadValidation listing pre fmt = .error .assertionError) := by
  refine ⟨_, write_ok hf hs.2 hd, fun listing hl => ?_⟩
  have hg := (find_perm hf hs.1 hd (after := []) (by intro f hf; cases hf) (by simpa using hl)).2
  obtain ⟨out, h1, h2⟩ := read_perm hf hs.1 hg
  unfold loadValidation
  rw [h1]
  constructor
  · intro r hr
    rw [hr, List.perm_singleton] at h2
    rw [h2]
  · intro hlen
    rw [← h2.length_eq] at hlen
    match out, hlen with
    | [], _ => rfl
    | [r], h => exact absurd rfl h
    | _ :: _ :: _, _ => rfl

/-- **C126 (another format).**  Results that were written in one format only cannot be loaded as the other: the reader
does not find the suffix, takes the files nevertheless and fails. -/
theorem C126_other_format {dir : Dir ρ κ} {pre : Name} {fmt other : String} {shards : List (Name × List ρ)}
    (hf : fmt ∈ supported) (ho : other ∈ supported) (hne : fmt ≠ other) (hs : Sharded shards) (hd : Fresh pre dir) :
    ∃ dir', writeOutput dir pre fmt shards = .ok dir' ∧ ∀ listing : Dir ρ κ, listing.Perm dir' →
      loadRecords listing pre other = .error .runtimeError := by
  refine ⟨_, write_ok hf hs.2 hd, fun listing hl => ?_⟩
  have hmem : ∀ f ∈ listing, pre <+: f.1 → ∃ s ∈ shards, f = (pre ++ s.1 ++ '.' :: fmt.toList, encode fmt s.2) := by
    intro f hfm hp
    rcases List.mem_append.1 (hl.mem_iff.1 hfm) with h | h
    · exact absurd hp (hd f h)
    · obtain ⟨t, ht, hte⟩ := List.mem_map.1 h
      exact ⟨t, ht, hte.symm⟩
  have hgl : glob listing pre (suffixOf other) = [] := by
    unfold glob
    rw [List.filter_eq_nil_iff]
    intro f hfm hm
    obtain ⟨t, _, rfl⟩ := hmem f hfm (isMatch_prefix hm)
    obtain ⟨mid, hmid⟩ := (isMatch_iff _ _ _).1 hm
    rw [suffixOf_supported ho] at hmid
    have h2 := congrArg List.reverse hmid
    simp only [List.reverse_append, List.reverse_cons, List.append_assoc] at h2
    simp only [supported, List.mem_cons, List.not_mem_nil, or_false] at hf ho
    rcases hf with rfl | rfl <;> rcases ho with rfl | rfl
    · exact hne rfl
    · have := congrArg (List.take 1) h2
      simp at this
    · have := congrArg (List.take 1) h2
      simp at this
    · exact hne rfl
  have hne2 : glob listing pre [] ≠ [] := by
    obtain ⟨s, hsm⟩ := List.exists_mem_of_ne_nil _ hs.1
    refine List.ne_nil_of_mem (a := (pre ++ s.1 ++ '.' :: fmt.toList, encode fmt s.2)) ?_
    refine List.mem_filter.2 ⟨hl.mem_iff.2 (List.mem_append.2 (.inr (List.mem_map.2 ⟨s, hsm, rfl⟩))), ?_⟩
    exact (isMatch_iff _ _ _).2 ⟨s.1 ++ '.' :: fmt.toList, by simp⟩
  have hfind : findFiles listing pre other = glob listing pre [] := by
    unfold findFiles
    simp only
    rw [hgl, if_pos (by simp)]
  unfold loadRecords
  rw [hfind]
  have hall : ∀ f ∈ glob listing pre [], ∃ rs, f.2 = encode fmt rs := by
    intro f hfm
    obtain ⟨h1, h2⟩ := List.mem_filter.1 hfm
    obtain ⟨t, _, rfl⟩ := hmem f h1 (isMatch_prefix h2)
    exact ⟨_, rfl⟩
  revert hall hne2
  generalize glob listing pre [] = files
  intro hne2 hall
  cases files with
  | nil => exact absurd rfl hne2
  | cons f files =>
    obtain ⟨rs, hrs⟩ := hall f (by simp)
    obtain ⟨n, x⟩ := f
    simp only at hrs
    subst hrs
    simp only [supported, List.mem_cons, List.not_mem_nil, or_false] at hf ho
    rcases hf with rfl | rfl <;> rcases ho with rfl | rfl
    · exact absurd rfl hne
    · rfl
    · rfl
    · exact absurd rfl hne

/-- **C126 (nothing written).**  Where there is no file of the output, loading TFRecord files gives no records, while
loading Parquet files is an error, and so is loading a verdict in either format. -/
theorem C126_absent {dir : Dir ρ κ} {pre : Name} (hd : Fresh pre dir) :
    loadRecords dir pre "tfrecord" = .ok [] ∧ loadRecords dir pre "parquet" = .error .runtimeError ∧
      loadValidation dir pre "tfrecord" = .error .assertionError ∧
      loadValidation dir pre "parquet" = .error .runtimeError := by
  unfold loadRecords findFiles loadValidation
  simp only [glob_fresh hd]
  exact ⟨rfl, rfl, rfl, rfl⟩

/-! ### the filter by slices -/

private theorem load_perm {V : Type} (c : NumCodec) (specs : List Spec) {rs stored : List (Stored V)} (hp : rs.Perm stored) :
    ∀ {loaded}, load c specs stored = .ok loaded → ∃ out, load c specs rs = .ok out ∧ out.Perm loaded := by
  have cons_ok : ∀ (r : Stored V) (l loaded : List (Stored V)), load c specs (r :: l) = .ok loaded →
      ∃ b : Bool, ∃ l', load c specs l = .ok l' ∧ loaded = (if b then r :: l' else l') ∧
        ∀ m m', load c specs m = .ok m' → load c specs (r :: m) = .ok (if b then r :: m' else m') := by
    intro r l loaded h
    unfold load at h
    by_cases he : specs.isEmpty
    · rw [if_pos he] at h
      cases hl : load c specs l with
      | error e => rw [hl] at h; cases h
      | ok l' =>
        rw [hl] at h
        refine ⟨true, l', rfl, (Except.ok.inj h).symm, fun m m' hm => ?_⟩
        conv_lhs => unfold load
        rw [if_pos he, hm]; rfl
    · rw [if_neg he] at h
      cases hk : deserializeKey r.key.sliceKey with
      | error e => rw [hk] at h; cases h
      | ok k =>
        rw [hk] at h
        simp only at h
        by_cases hmt : (!sliceKeyMatches c k specs) = true
        · rw [if_pos hmt] at h
          refine ⟨false, loaded, h, by simp, fun m m' hm => ?_⟩
          conv_lhs => unfold load
          rw [if_neg he, hk]
          simp only
          rw [if_pos hmt, hm]; rfl
        · rw [if_neg hmt] at h
          cases hl : load c specs l with
          | error e => rw [hl] at h; cases h
          | ok l' =>
            rw [hl] at h
            refine ⟨true, l', rfl, (Except.ok.inj h).symm, fun m m' hm => ?_⟩
            conv_lhs => unfold load
            rw [if_neg he, hk]
            simp only
            rw [if_neg hmt, hm]; rfl
  induction hp with
  | nil => intro loaded h; exact ⟨loaded, h, .refl _⟩
  | cons r _ ih =>
    intro loaded h
    obtain ⟨b, l', h1, h2, h3⟩ := cons_ok _ _ _ h
    obtain ⟨o, h4, h5⟩ := ih h1
    refine ⟨_, h3 _ _ h4, ?_⟩
    rw [h2]
    cases b
    · exact h5
    · exact h5.cons _
  | swap r1 r2 l =>
    intro loaded h
    obtain ⟨b1, l1, h1, h2, h3⟩ := cons_ok _ _ _ h
    obtain ⟨b2, l2, h4, h5, h6⟩ := cons_ok _ _ _ h1
    refine ⟨_, h6 _ _ (h3 _ _ h4), ?_⟩
    rw [h2, h5]
    cases b1 <;> cases b2 <;> simp
    exact .swap _ _ _
  | trans _ _ ih1 ih2 =>
    intro loaded h
    obtain ⟨o1, h1, h2⟩ := ih2 h
    obtain ⟨o2, h3, h4⟩ := ih1 h1
    exact ⟨o2, h3, h4.trans h2⟩

open Classical in
/-- **C126 (selected slices).**  The results of an evaluation, turned into records, distributed over shards and written to
files of a supported format: loading with slicing specs gives the records of exactly the slices of these specs.  The
slices have keys that are stored without loss (C07); for others see C50. -/
theorem C126_slices_partial {V : Type} (c : NumCodec) (R : SingleRounding) (specs : List Spec) (hs : Constructed c specs)
    (hne : specs ≠ []) (results : List (ResultKey × V)) (hk : ∀ r ∈ results, PlainKey r.1) {pre : Name} {fmt : String}
    (hf : fmt ∈ supported) {dir : Dir (Stored V) κ} (hd : Fresh pre dir) :
    ∃ stored, store R results = .ok stored ∧ ∀ shards : List (Name × List (Stored V)), Sharded shards →
      (recordsIn shards).Perm stored → ∃ dir', writeOutput dir pre fmt shards = .ok dir' ∧
        ∀ listing : Dir (Stored V) κ, listing.Perm dir' →
          ∃ out wanted, loadSliced c specs listing pre fmt = .ok out ∧ out.Perm wanted ∧
            store R (results.filter fun r => decide (Requested c specs r.1)) = .ok wanted := by
  obtain ⟨stored, h1, _, loaded, h3, h4⟩ := C50_load_partial c R specs hs hne results hk
  refine ⟨stored, h1, fun shards hsh hp => ?_⟩
  obtain ⟨dir', h5, h6⟩ := C126_round_trip hf hsh hd
  refine ⟨dir', h5, fun listing hl => ?_⟩
  obtain ⟨out, h7, h8⟩ := h6 listing hl
  obtain ⟨o, h9, h10⟩ := load_perm c specs (h8.trans hp) h3
  refine ⟨o, loaded, ?_, h10, h4⟩
  unfold loadSliced
  rw [h7]
  exact h9

/-! ### the configuration -/

/-- **C126 (configuration).**  What the writer writes is what the loader of the same name and format loads, whatever is
in the directory already. -/
theorem C126_config {version : String} (hv : version ≠ "") {a : ConfigArgs κ} (hdis : "eval_config" ∉ a.disabled)
    (hfmt : a.outputFileFormat = "" ∨ a.outputFileFormat = "json") (dir : Dir ρ κ) :
    ∃ dir', writeConfig version a dir = .ok dir' ∧
      loadConfig dir' a.outputFileFormat a.filename = .ok (some
        { config := a.config, version := version
          dataLocation := a.dataLocation.getD "<user provided PCollection>"
          fileFormat := a.dataFileFormat.getD "<unknown>"
          modelLocations := a.modelLocations.getD [("", "<unknown>")] }) := by
  refine ⟨Dict.set dir (configName a.outputFileFormat a.filename) (.json (evalRun version a)), ?_, ?_⟩
  · unfold writeConfig
    rw [if_neg hdis, if_neg (by rcases hfmt with h | h <;> simp [h])]
    rfl
  · unfold loadConfig
    rw [Dict.get?_set_self]
    simp only
    rw [if_neg (by simpa [evalRun] using hv)]
    rfl

/-- **C126 (configuration, formats).**  Other formats are refused unless the output is disabled; a disabled output leaves
the directory as it is. -/
theorem C126_config_refused (version : String) (a : ConfigArgs κ) (dir : Dir ρ κ) :
    ("eval_config" ∈ a.disabled → writeConfig version a dir = .ok dir) ∧
    ("eval_config" ∉ a.disabled → a.outputFileFormat ≠ "" → a.outputFileFormat ≠ "json" →
      writeConfig version a dir = .error .valueError) := by
  constructor
  · intro h; unfold writeConfig; rw [if_pos h]
  · intro h h1 h2; unfold writeConfig; rw [if_neg h, if_pos ⟨h1, h2⟩]

/-- **C126 fails for the empty format,** which the writer accepts: the file is called "eval_config." and the loader of
`load_eval_result`, which asks for "eval_config.json", finds no configuration. -/
theorem C126_config_format_fails (version : String) (config : κ) :
    ∃ dir' : Dir ρ κ, writeConfig version ⟨config, [], "", none, none, none, none⟩ [] = .ok dir' ∧
      loadConfig dir' "json" none = .ok none :=
  ⟨_, rfl, rfl⟩

/-- **C126 fails for a disabled configuration over earlier results:** the next run is loaded with the configuration of
the earlier run. -/
theorem C126_config_stale_fails (old new : κ) :
    ∃ d1 d2 : Dir ρ κ, writeConfig "1" ⟨old, [], "json", none, none, none, none⟩ [] = .ok d1 ∧
      writeConfig "1" ⟨new, ["eval_config"], "json", none, none, none, none⟩ d1 = .ok d2 ∧
      loadConfig d2 "json" none = .ok (some ⟨old, "1", "<user provided PCollection>", "<unknown>", [("", "<unknown>")]⟩) :=
  ⟨_, _, rfl, rfl, by simp [loadConfig, writeFiles, configName, Dict.set, Dict.get?, evalRun]⟩

/-- **C126 (version).**  A configuration in JSON without a version is refused. -/
theorem C126_config_version {dir : Dir ρ κ} {fmt : String} {filename : Option Name} {run : EvalRun κ}
    (h : Dict.get? dir (configName fmt filename) = some (.json run)) (hv : run.version = "") :
    loadConfig dir fmt filename = .error .valueError := by
  unfold loadConfig
  rw [h]
  simp only
  rw [if_pos hv]

/-- **C126 (old configurations).**  Without a configuration in JSON the one of an old version is loaded, which has no
suffix; without either there is none. -/
theorem C126_config_old {dir : Dir ρ κ} (h : Dict.get? dir "eval_config.json".toList = none) :
    (∀ run, Dict.get? dir "eval_config".toList = some (.pickled run) → loadConfig dir "json" none = .ok (some run)) ∧
    (Dict.get? dir "eval_config".toList = none → loadConfig dir "json" none = .ok none) := by
  have h1 : configName "json" none = "eval_config.json".toList := rfl
  have h2 : stem "eval_config.json".toList = "eval_config".toList := by decide
  unfold loadConfig
  rw [h1, h, h2]
  refine ⟨fun run hr => ?_, fun hr => ?_⟩
  · simp only [hr]
  · simp only [hr]

/-! ### the column of slice keys -/

/-- **C126 (Parquet columns).**  A row holds the record and, in the column for the slice, the values of the slice key in
order. -/
theorem C126_parquet_columns (r : Stored ρ) (values : List ProtoKind)
    (h : List.Forall₂ (fun (e : SingleSliceKeyProto) v => e.kind = some v) r.key.sliceKey values) :
    parquetColumns r = (values, r) := by
  have : parquetKey r.key.sliceKey = values := by
    unfold parquetKey
    generalize r.key.sliceKey = k at h
    induction h with
    | nil => rfl
    | cons h1 _ ih => rw [List.filterMap_cons, h1]; simp only [ih]
  unfold parquetColumns
  rw [this]

/-- **C126 fails for the column of slice keys in Parquet files:** only the values are kept, not the names of the features,
so that different slices have the same entry. -/
theorem C126_parquet_column_fails (v : ρ) :
    ∃ r1 r2 : Stored ρ, r1.key ≠ r2.key ∧ (parquetColumns r1).1 = (parquetColumns r2).1 :=
  ⟨⟨.slice [⟨"gender", some (.bytesValue ⟨#[97]⟩)⟩], v⟩, ⟨.slice [⟨"country", some (.bytesValue ⟨#[97]⟩)⟩], v⟩, by
    simp, rfl⟩

/-! ### cases that meet the hypotheses -/

/-- A directory with files of something else. -/
private def someDir : Dir ℕ String := [("notes.txt".toList, .other), ("metric".toList, .other)]

example : someDir.WF ∧ (∀ n ∈ outputNames, Fresh n someDir) ∧ Sharded [(firstOfTwo, [1, 2]), (secondOfTwo, [3])] ∧
    "parquet" ∈ supported := by
  refine ⟨by unfold Dict.WF; decide, ?_, ⟨by decide, by decide⟩, by decide⟩
  unfold Fresh
  decide

/-- Two runs with the same number of shards. -/
example : ∀ f ∈ ([("metrics-00000-of-00001.tfrecord".toList, .tfrecord [5]), ("x".toList, .other)] : Dir ℕ String),
    "metrics".toList <+: f.1 →
      ∃ s ∈ [(oneShard, [7])], f.1 = "metrics".toList ++ s.1 ++ '.' :: "tfrecord".toList := by decide

/-- Files of an old version. -/
example : loadRecords ([("metrics-00000-of-00001".toList, .tfrecord [5, 6]), ("plots".toList, .other)] : Dir ℕ String)
    "metrics".toList "tfrecord" = .ok [5, 6] := by decide

end ResultFiles
end TFMA
