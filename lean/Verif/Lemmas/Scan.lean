import Verif.Lemmas.Trace
import Verif.Spec.Scan

/-! Lemmas on scanning: every argument list has a reading, and the scan does what the reading says. -/

set_option linter.unusedSimpArgs false

namespace Sharg

open Spec

variable {W : Type}

theorem sDashH_eq : sDashH = "-h".toList := by decide
theorem sHelp_eq : sHelp = "--help".toList := by decide
theorem sDashHH_eq : sDashHH = "-hh".toList := by decide
theorem sAdvancedHelp_eq : sAdvancedHelp = "--advanced-help".toList := by decide
theorem sVersion_eq : sVersion = "--version".toList := by decide
theorem sCopyright_eq : sCopyright = "--copyright".toList := by decide
theorem sExportHelp_eq : sExportHelp = "--export-help".toList := by decide
theorem sVersionCheck_eq : sVersionCheck = "--version-check".toList := by decide

def exportEq : Str := sExportHelp ++ ['=']
theorem exportEq_eq : exportEq = "--export-help=".toList := by decide

theorem exportFormat_ok (v : Str) (f : Format) : exportFormat v = .ok f ↔
    (v = "html".toList ∧ f = .html) ∨ (v = "man".toList ∧ f = .man) ∨ (v = "ctd".toList ∧ f = .tdl false) ∨
    (v = "cwl".toList ∧ f = .tdl true) := by
  unfold exportFormat
  have e1 : "html".toList = ['h', 't', 'm', 'l'] := by decide
  have e2 : "man".toList = ['m', 'a', 'n'] := by decide
  have e3 : "ctd".toList = ['c', 't', 'd'] := by decide
  have e4 : "cwl".toList = ['c', 'w', 'l'] := by decide
  rw [e1, e2, e3, e4]
  by_cases h1 : v = ['h', 't', 'm', 'l']
  · subst h1; simp [eq_comm]
  · by_cases h2 : v = ['m', 'a', 'n']
    · subst h2; simp [eq_comm]
    · by_cases h3 : v = ['c', 't', 'd']
      · subst h3; simp [eq_comm]
      · by_cases h4 : v = ['c', 'w', 'l']
        · subst h4; simp [eq_comm]
        · simp [h1, h2, h3, h4]

theorem exportFormat_err (v : Str) (h : v ∉ exportValues) : exportFormat v = .error .validationError := by
  have e1 : exportValues = [['h', 't', 'm', 'l'], ['m', 'a', 'n'], ['c', 't', 'd'], ['c', 'w', 'l']] := by decide
  rw [e1] at h
  simp at h
  simp [exportFormat, h]

theorem exportFormat_total (v : Str) : (∃ f, exportFormat v = .ok f) ∨ v ∉ exportValues := by
  by_cases h : v ∈ exportValues
  · left
    simp only [exportValues, List.mem_cons, List.not_mem_nil, or_false] at h
    rcases h with h | h | h | h
    · exact ⟨.html, (exportFormat_ok _ _).2 (by simp [h])⟩
    · exact ⟨.man, (exportFormat_ok _ _).2 (by simp [h])⟩
    · exact ⟨.tdl false, (exportFormat_ok _ _).2 (by simp [h])⟩
    · exact ⟨.tdl true, (exportFormat_ok _ _).2 (by simp [h])⟩
  · exact Or.inr h

theorem versionCheckValue_ok (v : Str) (b : Bool) (h : CheckValue b v) : versionCheckValue v = .ok b := by
  unfold CheckValue at h
  have e1 : "1".toList = ['1'] := by decide
  have e2 : "true".toList = ['t', 'r', 'u', 'e'] := by decide
  have e3 : "0".toList = ['0'] := by decide
  have e4 : "false".toList = ['f', 'a', 'l', 's', 'e'] := by decide
  rw [e1, e2, e3, e4] at h
  cases b with
  | true =>
    simp at h
    simp [versionCheckValue, h]
  | false =>
    simp at h
    rcases h with rfl | rfl <;> rfl

theorem versionCheckValue_total (v : Str) :
    (∃ b, CheckValue b v ∧ versionCheckValue v = .ok b) ∨
    ((∀ b, ¬ CheckValue b v) ∧ versionCheckValue v = .error .validationError) := by
  by_cases h1 : CheckValue true v
  · exact Or.inl ⟨true, h1, versionCheckValue_ok v true h1⟩
  · by_cases h2 : CheckValue false v
    · exact Or.inl ⟨false, h2, versionCheckValue_ok v false h2⟩
    · refine Or.inr ⟨fun b => by cases b <;> assumption, ?_⟩
      have e1 : "1".toList = ['1'] := by decide
      have e2 : "true".toList = ['t', 'r', 'u', 'e'] := by decide
      have e3 : "0".toList = ['0'] := by decide
      have e4 : "false".toList = ['f', 'a', 'l', 's', 'e'] := by decide
      simp [CheckValue, e1, e2, e3, e4] at h1 h2
      simp [versionCheckValue, h1, h2]

theorem not_reserved_iff (a : Str) : ¬ Reserved a ↔
    a ≠ sDashH ∧ a ≠ sHelp ∧ a ≠ sDashHH ∧ a ≠ sAdvancedHelp ∧ a ≠ sVersion ∧ a ≠ sCopyright ∧ a ≠ sExportHelp ∧
      a ≠ sVersionCheck ∧ exportEq.isPrefixOf a = false := by
  unfold Reserved
  rw [sDashH_eq, sHelp_eq, sDashHH_eq, sAdvancedHelp_eq, sVersion_eq, sCopyright_eq, sExportHelp_eq, sVersionCheck_eq,
    ← Bool.not_eq_true, List.isPrefixOf_iff_prefix, exportEq_eq]
  simp only [List.mem_cons, List.not_mem_nil, or_false, not_or, List.prefix_iff_eq_append, ne_eq]
  constructor
  · rintro ⟨⟨h1, h2, h3, h4, h5, h6, h7, h8⟩, h9⟩
    exact ⟨h1, h2, h3, h4, h5, h6, h7, h8, fun h => h9 ⟨_, h.symm⟩⟩
  · rintro ⟨h1, h2, h3, h4, h5, h6, h7, h8, h9⟩
    refine ⟨⟨h1, h2, h3, h4, h5, h6, h7, h8⟩, ?_⟩
    rintro ⟨v, rfl⟩
    exact h9 (by simp)

/-- Effect of a token on the scan state. -/
def Spec.Tok.apply (t : Tok) (s : ScanState) : ScanState :=
  { s with
    format := match t with
      | .request f _ => f
      | _ => s.format
    formatArguments := s.formatArguments ++ t.kept
    userDecision := match t with
      | .check b _ => some b
      | _ => s.userDecision }

theorem scan_option (options subs : List Str) (o v : Str) (rest : List Str) (s : ScanState) (h : o ∈ options) :
    scanLoop options subs (o :: v :: rest) s = scanLoop options subs rest (Tok.apply (.option o v) s) := by
  conv => lhs; unfold scanLoop
  simp [h, M.bind_run, pushArg, Tok.apply, kept, Tok.kept]

theorem head_of_sub {subs : List Str} {a : Str} (h : subs ≠ [] → a.head? = some '-') :
    ¬ (subs ≠ [] ∧ a.head? ≠ some '-') := fun hh => hh.2 (h hh.1)

theorem scan_plain (options subs : List Str) (a : Str) (rest : List Str) (s : ScanState)
    (h : Tok.Ok options subs (.plain a)) :
    scanLoop options subs (a :: rest) s = scanLoop options subs rest (Tok.apply (.plain a) s) := by
  obtain ⟨h1, h2, h3, h4⟩ := h
  obtain ⟨k1, k2, k3, k4, k5, k6, k7, k8, k9⟩ := (not_reserved_iff a).1 h3
  have h5 := head_of_sub h4
  conv => lhs; unfold scanLoop
  rw [if_neg h1, if_neg (fun hh => h2 hh.2), if_neg h5, if_neg (by simp [k1, k2]), if_neg (by simp [k3, k4]), if_neg k5,
    if_neg k6, if_neg k7, if_neg (show ¬ (sExportHelp ++ ['=']).isPrefixOf a = true by
      rw [show sExportHelp ++ ['='] = exportEq from rfl, k9]; simp), if_neg k8]
  simp [M.bind_run, pushArg, Tok.apply, kept, Tok.kept]

theorem dash_not_unknown {subs : List Str} {a : Str} (h : a.head? = some '-') :
    ¬ (subs ≠ [] ∧ a.head? ≠ some '-') := fun hh => hh.2 h

theorem scan_check (options subs : List Str) (b : Bool) (v : Str) (rest : List Str) (s : ScanState)
    (h : Tok.Ok options subs (.check b v)) :
    scanLoop options subs ("--version-check".toList :: v :: rest) s =
      scanLoop options subs rest (Tok.apply (.check b v) s) := by
  obtain ⟨h1, h2, h3⟩ := h
  rw [← sVersionCheck_eq] at h2 h3 ⊢
  conv => lhs; unfold scanLoop
  rw [if_neg h2, if_neg (fun hh => h3 hh.2), if_neg (dash_not_unknown (by decide)), if_neg (by decide),
    if_neg (by decide), if_neg (by decide), if_neg (by decide), if_neg (by decide), if_neg (by decide), if_pos rfl]
  simp [versionCheckValue_ok v b h1, M.bind_run, Tok.apply, kept, Tok.kept]

theorem scan_export (options subs : List Str) (f : Format) (v : Str) (rest : List Str) (s : ScanState)
    (h : exportFormat v = .ok f) (h1 : sExportHelp ∉ options) (h2 : sExportHelp ∉ subs) :
    scanLoop options subs (sExportHelp :: v :: rest) s =
      scanLoop options subs rest { s with format := f } := by
  conv => lhs; unfold scanLoop
  rw [if_neg h1, if_neg (fun hh => h2 hh.2), if_neg (dash_not_unknown (by decide)), if_neg (by decide),
    if_neg (by decide), if_neg (by decide), if_neg (by decide), if_pos rfl]
  simp [h, M.bind_run, setFormat]

theorem scan_exportEq (options subs : List Str) (f : Format) (v : Str) (rest : List Str) (s : ScanState)
    (h : exportFormat v = .ok f) (h1 : exportEq ++ v ∉ options) (h2 : exportEq ++ v ∉ subs) :
    scanLoop options subs ((exportEq ++ v) :: rest) s =
      scanLoop options subs rest { s with format := f } := by
  conv => lhs; unfold scanLoop
  have hd : (exportEq ++ v).drop (sExportHelp.length + 1) = v := by
    rw [show sExportHelp.length + 1 = exportEq.length from rfl]; simp
  rw [if_neg h1, if_neg (fun hh => h2 hh.2), if_neg (dash_not_unknown (by rw [exportEq_eq]; rfl)),
    if_neg (by simp [exportEq, sExportHelp, sDashH, sHelp]), if_neg (by simp [exportEq, sExportHelp, sDashHH, sAdvancedHelp]),
    if_neg (by simp [exportEq, sExportHelp, sVersion]), if_neg (by simp [exportEq, sExportHelp, sCopyright]),
    if_neg (by simp [exportEq, sExportHelp]),
    if_pos (by rw [show sExportHelp ++ ['='] = exportEq from rfl, List.isPrefixOf_iff_prefix]; exact List.prefix_append _ _),
    hd]
  simp [h, M.bind_run, setFormat]

theorem scan_simple (options subs : List Str) (a : Str) (f : Format) (rest : List Str) (s : ScanState)
    (ha : (a = sDashH ∨ a = sHelp) ∧ f = .help false ∨ (a = sDashHH ∨ a = sAdvancedHelp) ∧ f = .help true ∨
      a = sVersion ∧ f = .version ∨ a = sCopyright ∧ f = .copyright)
    (h1 : a ∉ options) (h2 : a ∉ subs) :
    scanLoop options subs (a :: rest) s = scanLoop options subs rest { s with format := f } := by
  conv => lhs; unfold scanLoop
  rcases ha with ⟨ha, rfl⟩ | ⟨ha, rfl⟩ | ⟨rfl, rfl⟩ | ⟨rfl, rfl⟩
  · rw [if_neg h1, if_neg (fun hh => h2 hh.2),
      if_neg (dash_not_unknown (by rcases ha with rfl | rfl <;> rfl)), if_pos ha]
    simp [M.bind_run, setFormat]
  · rw [if_neg h1, if_neg (fun hh => h2 hh.2),
      if_neg (dash_not_unknown (by rcases ha with rfl | rfl <;> rfl)), if_neg (by rcases ha with rfl | rfl <;> decide),
      if_pos ha]
    simp [M.bind_run, setFormat]
  · rw [if_neg h1, if_neg (fun hh => h2 hh.2), if_neg (dash_not_unknown (by rfl)), if_neg (by decide),
      if_neg (by decide), if_pos rfl]
    simp [M.bind_run, setFormat]
  · rw [if_neg h1, if_neg (fun hh => h2 hh.2), if_neg (dash_not_unknown (by rfl)), if_neg (by decide),
      if_neg (by decide), if_neg (by decide), if_pos rfl]
    simp [M.bind_run, setFormat]

theorem apply_request (f : Format) (args : List Str) (s : ScanState) :
    Tok.apply (.request f args) s = { s with format := f } := by
  simp [Tok.apply, kept, Tok.kept]

/-- One token is read as specified. -/
theorem scan_tok (options subs : List Str) (t : Tok) (rest : List Str) (s : ScanState) (h : t.Ok options subs) :
    scanLoop options subs (t.render ++ rest) s = scanLoop options subs rest (t.apply s) := by
  cases t with
  | option o v => exact scan_option options subs o v rest s h
  | plain a => exact scan_plain options subs a rest s h
  | check b v => exact scan_check options subs b v rest s h
  | request f args =>
    obtain ⟨hr, hn⟩ := h
    rw [apply_request]
    have hx : ∀ v, exportEq ++ v = "--export-help=".toList ++ v := by rw [exportEq_eq]; simp
    have e5 : "--export-help=html".toList = exportEq ++ "html".toList := by decide
    have e6 : "--export-help=man".toList = exportEq ++ "man".toList := by decide
    have e7 : "--export-help=ctd".toList = exportEq ++ "ctd".toList := by decide
    have e8 : "--export-help=cwl".toList = exportEq ++ "cwl".toList := by decide
    cases hr with
    | help => obtain ⟨h1, h2⟩ := hn _ _ rfl; exact scan_simple _ _ _ _ _ _ (by simp [← sDashH_eq]) h1 h2
    | helpLong => obtain ⟨h1, h2⟩ := hn _ _ rfl; exact scan_simple _ _ _ _ _ _ (by simp [← sHelp_eq]) h1 h2
    | advanced => obtain ⟨h1, h2⟩ := hn _ _ rfl; exact scan_simple _ _ _ _ _ _ (by simp [← sDashHH_eq]) h1 h2
    | advancedLong => obtain ⟨h1, h2⟩ := hn _ _ rfl; exact scan_simple _ _ _ _ _ _ (by simp [← sAdvancedHelp_eq]) h1 h2
    | version => obtain ⟨h1, h2⟩ := hn _ _ rfl; exact scan_simple _ _ _ _ _ _ (by simp [← sVersion_eq]) h1 h2
    | copyright => obtain ⟨h1, h2⟩ := hn _ _ rfl; exact scan_simple _ _ _ _ _ _ (by simp [← sCopyright_eq]) h1 h2
    | html =>
      obtain ⟨h1, h2⟩ := hn _ _ rfl
      rw [← sExportHelp_eq] at *
      exact scan_export _ _ _ _ _ _ ((exportFormat_ok _ _).2 (by simp)) h1 h2
    | man =>
      obtain ⟨h1, h2⟩ := hn _ _ rfl
      rw [← sExportHelp_eq] at *
      exact scan_export _ _ _ _ _ _ ((exportFormat_ok _ _).2 (by simp)) h1 h2
    | ctd =>
      obtain ⟨h1, h2⟩ := hn _ _ rfl
      rw [← sExportHelp_eq] at *
      exact scan_export _ _ _ _ _ _ ((exportFormat_ok _ _).2 (by simp)) h1 h2
    | cwl =>
      obtain ⟨h1, h2⟩ := hn _ _ rfl
      rw [← sExportHelp_eq] at *
      exact scan_export _ _ _ _ _ _ ((exportFormat_ok _ _).2 (by simp)) h1 h2
    | htmlEq =>
      obtain ⟨h1, h2⟩ := hn _ _ rfl
      rw [e5] at *
      exact scan_exportEq _ _ _ _ _ _ ((exportFormat_ok _ _).2 (by simp)) h1 h2
    | manEq =>
      obtain ⟨h1, h2⟩ := hn _ _ rfl
      rw [e6] at *
      exact scan_exportEq _ _ _ _ _ _ ((exportFormat_ok _ _).2 (by simp)) h1 h2
    | ctdEq =>
      obtain ⟨h1, h2⟩ := hn _ _ rfl
      rw [e7] at *
      exact scan_exportEq _ _ _ _ _ _ ((exportFormat_ok _ _).2 (by simp)) h1 h2
    | cwlEq =>
      obtain ⟨h1, h2⟩ := hn _ _ rfl
      rw [e8] at *
      exact scan_exportEq _ _ _ _ _ _ ((exportFormat_ok _ _).2 (by simp)) h1 h2

theorem scan_toks (options subs : List Str) (toks : List Tok) (rest : List Str) (s : ScanState)
    (h : ∀ t ∈ toks, t.Ok options subs) :
    scanLoop options subs (renderToks toks ++ rest) s =
      scanLoop options subs rest (toks.foldl (fun s t => t.apply s) s) := by
  induction toks generalizing s with
  | nil => rfl
  | cons t toks ih =>
    simp only [renderToks, List.flatMap_cons, List.append_assoc] at ih ⊢
    rw [scan_tok options subs t _ s (h t (by simp)), ih _ (fun t ht => h t (by simp [ht]))]
    rfl

theorem foldl_apply (toks : List Tok) (s : ScanState) :
    toks.foldl (fun s t => t.apply s) s =
      { s with
        format := (lastRequest toks).getD s.format
        formatArguments := s.formatArguments ++ kept toks
        userDecision := (lastCheck toks).or s.userDecision } := by
  induction toks generalizing s with
  | nil => simp [lastRequest, lastCheck, kept]
  | cons t toks ih =>
    rw [List.foldl_cons, ih]
    cases t <;> simp [Tok.apply, lastRequest, lastCheck, kept, List.getLast?_cons, Tok.request?, Tok.check?, Tok.kept]

/-- The final state of the scan. -/
def scanResult (toks : List Tok) (stop : Stop) (s : ScanState) : ScanState :=
  { s with
    format := (lastRequest toks).getD s.format
    formatArguments := s.formatArguments ++ kept toks ++ stop.kept
    sub := stop.sub?.or s.sub
    userDecision := (lastCheck toks).or s.userDecision }

/-- The scan does what the reading says. -/
theorem scan_reading (options subs args : List Str) (toks : List Tok) (stop : Stop)
    (h : Reading options subs args toks stop) (s : ScanState) :
    scanLoop options subs args s =
      match stop.exn? with
      | none => .ok () (scanResult toks stop s)
      | some e => .err e (scanResult toks stop s) := by
  rw [h.eq, scan_toks options subs toks _ s h.toksOk, foldl_apply]
  have hs := h.stopOk
  cases stop with
  | atEnd => simp [Stop.render, scanLoop, Stop.exn?, scanResult, Stop.kept, Stop.sub?]
  | lastOption o =>
    have hs : o ∈ options := hs
    simp [Stop.render, scanLoop, Stop.exn?, scanResult, Stop.kept, Stop.sub?, hs, M.bind_run, pushArg]
  | subcommand x rest =>
    obtain ⟨h1, h2⟩ := hs
    simp only [Stop.render]
    unfold scanLoop
    rw [if_neg h1, if_pos ⟨List.ne_nil_of_mem h2, h2⟩]
    simp [Stop.exn?, scanResult, Stop.kept, Stop.sub?]
  | unknownSubcommand a rest =>
    obtain ⟨h1, h2, h3, h4⟩ := hs
    simp only [Stop.render]
    unfold scanLoop
    rw [if_neg h1, if_neg (fun hh => h2 hh.2), if_pos ⟨h3, h4⟩]
    simp [Stop.exn?, scanResult, Stop.kept, Stop.sub?]
  | missingValue a =>
    obtain ⟨h1, h2, h3⟩ := hs
    rw [← sExportHelp_eq, ← sVersionCheck_eq] at h3
    unfold scanLoop
    simp only [Stop.render]
    rcases h3 with rfl | rfl
    · rw [if_neg h1, if_neg (fun hh => h2 hh.2), if_neg (dash_not_unknown (by rfl)), if_neg (by decide),
        if_neg (by decide), if_neg (by decide), if_neg (by decide), if_pos rfl]
      simp [Stop.exn?, scanResult, Stop.kept, Stop.sub?]
    · rw [if_neg h1, if_neg (fun hh => h2 hh.2), if_neg (dash_not_unknown (by rfl)), if_neg (by decide),
        if_neg (by decide), if_neg (by decide), if_neg (by decide), if_neg (by decide), if_neg (by decide), if_pos rfl]
      simp [Stop.exn?, scanResult, Stop.kept, Stop.sub?]
  | badExport v rest =>
    obtain ⟨h1, h2, h3⟩ := hs
    simp only [Stop.render]
    rw [← sExportHelp_eq] at *
    unfold scanLoop
    rw [if_neg h1, if_neg (fun hh => h2 hh.2), if_neg (dash_not_unknown (by rfl)), if_neg (by decide),
        if_neg (by decide), if_neg (by decide), if_neg (by decide), if_pos rfl]
    simp [Stop.exn?, scanResult, Stop.kept, Stop.sub?, exportFormat_err v h3]
  | badExportEq v rest =>
    obtain ⟨h1, h2, h3⟩ := hs
    simp only [Stop.render]
    rw [← exportEq_eq] at *
    unfold scanLoop
    have hd : (exportEq ++ v).drop (sExportHelp.length + 1) = v := by
      rw [show sExportHelp.length + 1 = exportEq.length from rfl]; simp
    rw [if_neg h1, if_neg (fun hh => h2 hh.2), if_neg (dash_not_unknown (by rw [exportEq_eq]; rfl)),
      if_neg (by simp [exportEq, sExportHelp, sDashH, sHelp]), if_neg (by simp [exportEq, sExportHelp, sDashHH, sAdvancedHelp]),
      if_neg (by simp [exportEq, sExportHelp, sVersion]), if_neg (by simp [exportEq, sExportHelp, sCopyright]),
      if_neg (by simp [exportEq, sExportHelp]),
      if_pos (by rw [show sExportHelp ++ ['='] = exportEq from rfl, List.isPrefixOf_iff_prefix]; exact List.prefix_append _ _),
      hd]
    simp [Stop.exn?, scanResult, Stop.kept, Stop.sub?, exportFormat_err v h3]
  | badCheck v rest =>
    obtain ⟨h1, h2, h3⟩ := hs
    simp only [Stop.render]
    rw [← sVersionCheck_eq] at *
    unfold scanLoop
    rw [if_neg h1, if_neg (fun hh => h2 hh.2), if_neg (dash_not_unknown (by rfl)), if_neg (by decide),
        if_neg (by decide), if_neg (by decide), if_neg (by decide), if_neg (by decide), if_neg (by decide), if_pos rfl]
    rcases versionCheckValue_total v with ⟨b, hb, _⟩ | ⟨_, hv⟩
    · exact absurd hb (h3 b)
    · simp [Stop.exn?, scanResult, Stop.kept, Stop.sub?, hv]

theorem Spec.Reading.cons {options subs args : List Str} {toks : List Tok} {stop : Stop} (t : Tok)
    (h : Reading options subs args toks stop) (ht : t.Ok options subs) :
    Reading options subs (t.render ++ args) (t :: toks) stop where
  eq := by rw [h.eq]; simp [renderToks]
  toksOk := by
    intro x hx
    simp at hx
    rcases hx with rfl | hx
    · exact ht
    · exact h.toksOk x hx
  stopOk := h.stopOk

theorem Spec.Reading.stop {options subs : List Str} (stop : Stop) (h : stop.Ok options subs) :
    Reading options subs stop.render [] stop := ⟨by simp [renderToks], by simp, h⟩

/-- Every argument list has a reading. -/
theorem reading_exists (options subs args : List Str) : ∃ toks stop, Reading options subs args toks stop := by
  have key : ∀ (n : Nat) (args : List Str), args.length ≤ n → ∃ toks stop, Reading options subs args toks stop := by
    intro n
    induction n with
    | zero =>
      intro args hn
      have : args = [] := by simpa using hn
      subst this
      exact ⟨[], .atEnd, Reading.stop .atEnd trivial⟩
    | succ n ih =>
      intro args hn
      cases args with
      | nil => exact ⟨[], .atEnd, Reading.stop .atEnd trivial⟩
      | cons a rest =>
        have hr : rest.length ≤ n := by simp at hn; omega
        by_cases h1 : a ∈ options
        · cases rest with
          | nil => exact ⟨[], .lastOption a, Reading.stop (.lastOption a) h1⟩
          | cons v rest' =>
            obtain ⟨toks, stop, h⟩ := ih rest' (by simp at hr; omega)
            exact ⟨_, _, h.cons (.option a v) h1⟩
        · by_cases h2 : a ∈ subs
          · exact ⟨[], .subcommand a rest, Reading.stop (.subcommand a rest) ⟨h1, h2⟩⟩
          · by_cases h3 : subs ≠ [] ∧ a.head? ≠ some '-'
            · exact ⟨[], .unknownSubcommand a rest, Reading.stop (.unknownSubcommand a rest) ⟨h1, h2, h3.1, h3.2⟩⟩
            · obtain ⟨toks, stop, h⟩ := ih rest hr
              have simple : ∀ f, Requests f [a] → ∃ toks stop, Reading options subs (a :: rest) toks stop :=
                fun f hf => ⟨_, _, h.cons (.request f [a]) ⟨hf, by rintro b r hb; cases hb; exact ⟨h1, h2⟩⟩⟩
              by_cases hres : Reserved a
              · rcases hres with hres | ⟨v, rfl⟩
                · simp only [List.mem_cons, List.not_mem_nil, or_false] at hres
                  rcases hres with rfl | rfl | rfl | rfl | rfl | rfl | rfl | rfl
                  · exact simple _ .help
                  · exact simple _ .helpLong
                  · exact simple _ .advanced
                  · exact simple _ .advancedLong
                  · exact simple _ .version
                  · exact simple _ .copyright
                  · cases rest with
                    | nil => exact ⟨[], .missingValue _, Reading.stop (.missingValue _) ⟨h1, h2, Or.inl rfl⟩⟩
                    | cons v rest' =>
                      obtain ⟨toks, stop, h⟩ := ih rest' (by simp at hr; omega)
                      have two : ∀ f, Requests f ["--export-help".toList, v] →
                          ∃ toks stop, Reading options subs ("--export-help".toList :: v :: rest') toks stop :=
                        fun f hf => ⟨_, _, h.cons (.request f ["--export-help".toList, v])
                          ⟨hf, by rintro b r hb; cases hb; exact ⟨h1, h2⟩⟩⟩
                      rcases exportFormat_total v with ⟨f, hf⟩ | hv
                      · rcases (exportFormat_ok v f).1 hf with ⟨rfl, rfl⟩ | ⟨rfl, rfl⟩ | ⟨rfl, rfl⟩ | ⟨rfl, rfl⟩
                        · exact two _ .html
                        · exact two _ .man
                        · exact two _ .ctd
                        · exact two _ .cwl
                      · exact ⟨[], .badExport v rest', Reading.stop (.badExport v rest') ⟨h1, h2, hv⟩⟩
                  · cases rest with
                    | nil => exact ⟨[], .missingValue _, Reading.stop (.missingValue _) ⟨h1, h2, Or.inr rfl⟩⟩
                    | cons v rest' =>
                      obtain ⟨toks, stop, h⟩ := ih rest' (by simp at hr; omega)
                      rcases versionCheckValue_total v with ⟨b, hb, _⟩ | ⟨hv, _⟩
                      · exact ⟨_, _, h.cons (.check b v) ⟨hb, h1, h2⟩⟩
                      · exact ⟨[], .badCheck v rest', Reading.stop (.badCheck v rest') ⟨h1, h2, hv⟩⟩
                · rcases exportFormat_total v with ⟨f, hf⟩ | hv
                  · rcases (exportFormat_ok v f).1 hf with ⟨rfl, rfl⟩ | ⟨rfl, rfl⟩ | ⟨rfl, rfl⟩ | ⟨rfl, rfl⟩
                    · exact simple _ .htmlEq
                    · exact simple _ .manEq
                    · exact simple _ .ctdEq
                    · exact simple _ .cwlEq
                  · exact ⟨[], .badExportEq v rest, Reading.stop (.badExportEq v rest) ⟨h1, h2, hv⟩⟩
              · refine ⟨_, _, h.cons (.plain a) ⟨h1, h2, hres, fun hs => ?_⟩⟩
                by_cases hh : a.head? = some '-'
                · exact hh
                · exact absurd ⟨hs, hh⟩ h3
  exact key _ args (Nat.le_refl _)

end Sharg
