import Verif.Tests.Fixture

/-! # `test/unit/detail/format_man_test.cpp` -/

namespace Sharg.Tests

def manStart : List String :=
  [ r#".TH TEST_PARSER 1 "December 01, 1994" "test_parser 01.01.01" "default_man_page_title""#, "\n",
    ".SH NAME\n",
    r"test_parser \- A short description here.", "\n" ]

def manCommon (tdl : Bool) : List String :=
  [ ".SS Common options\n",
    ".TP\n",
    r"\fB-h\fP, \fB--help\fP", "\n",
    "Prints the help page.\n",
    ".TP\n",
    r"\fB-hh\fP, \fB--advanced-help\fP", "\n",
    "Prints the help page including advanced options.\n",
    ".TP\n",
    r"\fB--version\fP", "\n",
    "Prints the version information.\n",
    ".TP\n",
    r"\fB--copyright\fP", "\n",
    "Prints the copyright/license information.\n",
    ".TP\n",
    r"\fB--export-help\fP (std::string)", "\n",
    "Export the help page information. Value must be one of ",
    if tdl then "[html, man, ctd, cwl].\n" else "[html, man].\n" ]

def manVersion : List String :=
  [ ".SH VERSION\n",
    r"\fBLast update: \fRDecember 01, 1994", "\n",
    ".br\n",
    r"\fBtest_parser version: \fR01.01.01", "\n",
    ".br\n",
    r"\fBSharg version: \fR", shargVersion, "\n" ]

/-- `expected`. -/
def manExpected (tdl : Bool) : List String :=
  manStart ++
  [ ".SH SYNOPSIS\n",
    r"\fB./format_man_test\fP synopsis", "\n",
    ".br\n",
    r"\fB./format_man_test\fP synopsis2", "\n",
    ".SH DESCRIPTION\n",
    "description\n",
    ".sp\n",
    "description2\n",
    ".SH POSITIONAL ARGUMENTS\n",
    ".TP\n",
    r"\fBARGUMENT-1\fP (\fIsigned 8 bit integer\fP)", "\n",
    "this is a positional option.\n",
    ".TP\n",
    r"\fBARGUMENT-2\fP (\fIList\fP of \fIstd::string\fP)", "\n",
    "this is a positional option. Default: []\n",
    ".SH OPTIONS\n",
    ".TP\n",
    r"\fB-i\fP, \fB--int\fP (\fIsigned 32 bit integer\fP)", "\n",
    "this is a int option. Default: A number\n",
    ".TP\n",
    r"\fB-j\fP, \fB--jint\fP (\fIsigned 32 bit integer\fP)", "\n",
    "this is a required int option.\n",
    ".SH FLAGS\n",
    ".SS SubFlags\n",
    "here come all the flags\n",
    ".TP\n",
    r"\fB-f\fP, \fB--flag\fP", "\n",
    "this is a flag.\n",
    ".TP\n",
    r"\fB-k\fP, \fB--kflag\fP", "\n",
    "this is a flag.\n" ] ++ manCommon tdl ++
  [ ".SH EXAMPLES\n",
    "example\n",
    ".sp\n",
    "example2\n" ] ++ manVersion

/-- The information set in all tests. -/
def manInfo : Meta :=
  { date := "December 01, 1994".toList, version := "01.01.01".toList, manPageTitle := "default_man_page_title".toList,
    shortDescription := "A short description here.".toList }

/-- The information set by `dummy_init`. -/
def manInfoFull : Meta :=
  { manInfo with
    synopsis := strs ["./format_man_test synopsis", "./format_man_test synopsis2"],
    description := strs ["description", "description2"], examples := strs ["example", "example2"] }

/-- The calls of `dummy_init`. -/
def manCalls : List (Call World) :=
  [ .addOption { short := 'i', long := "int".toList, description := "this is a int option.".toList,
                 defaultMessage := "A number".toList } 0 false int32 anything,
    .addOption { short := 'j', long := "jint".toList, description := "this is a required int option.".toList,
                 required := true } 0 false int32 anything,
    .addSection "Flags".toList false,
    .addSubsection "SubFlags".toList false,
    .addLine "here come all the flags".toList false false,
    .addFlag { short := 'f', long := "flag".toList, description := "this is a flag.".toList } 1 false,
    .addFlag { short := 'k', long := "kflag".toList, description := "this is a flag.".toList } 1 false,
    .addPositionalOption { description := "this is a positional option.".toList } 2 false int8 anything,
    .addPositionalOption { description := "this is a positional option.".toList } 3 true .string anything ]

/-- The page of a parser. -/
def manPage (tdl : Bool) (info : Meta) (calls : List (Call World)) : Option Str :=
  cout (pages tdl info) (getParser ["--version-check", "false", "--export-help", "man"]) calls
    [.one (.int 5), .one (.bool false), .one (.int 1), .many []]

-- Test `empty_information`.
#guard ∀ tdl : Bool, manPage tdl manInfo [] =
  text (manStart ++ [".SH OPTIONS\n"] ++ manCommon tdl ++ manVersion)

-- Test `full_information`.
#guard ∀ tdl : Bool, manPage tdl manInfoFull manCalls = text (manExpected tdl)

-- Test `full_info_short_copyright`.
#guard ∀ tdl : Bool, manPage tdl { manInfoFull with shortCopyright := "short copyright".toList } manCalls =
  text (manExpected tdl ++ [r".SH LEGAL
\fBtest_parser Copyright: \fRshort copyright
.br
\fBSeqAn Copyright: \fR2006-2024 Knut Reinert, FU-Berlin; released under the 3-clause BSDL.
"])

-- Test `full_info_short_and_citation`.
#guard ∀ tdl : Bool, manPage tdl { manInfoFull with
    shortCopyright := "short copyright".toList, citation := "citation".toList } manCalls =
  text (manExpected tdl ++ [r".SH LEGAL
\fBtest_parser Copyright: \fRshort copyright
.br
\fBSeqAn Copyright: \fR2006-2024 Knut Reinert, FU-Berlin; released under the 3-clause BSDL.
.br
\fBIn your academic works please cite: \fRcitation
"])

-- Test `full_info_short_long_and_citation`.
#guard ∀ tdl : Bool, manPage tdl { manInfoFull with
    shortCopyright := "short copyright".toList, citation := "citation".toList,
    longCopyright := "looong copyright".toList } manCalls =
  text (manExpected tdl ++ [r".SH LEGAL
\fBtest_parser Copyright: \fRshort copyright
.br
\fBSeqAn Copyright: \fR2006-2024 Knut Reinert, FU-Berlin; released under the 3-clause BSDL.
.br
\fBIn your academic works please cite: \fRcitation
.br
For full copyright and/or warranty information see \fB--copyright\fR.
"])

-- Test `full_info_author`.
#guard ∀ tdl : Bool, manPage tdl { manInfoFull with author := "author".toList } manCalls =
  text (manExpected tdl ++ [r".SH LEGAL
\fBAuthor: \fRauthor
.br
\fBSeqAn Copyright: \fR2006-2024 Knut Reinert, FU-Berlin; released under the 3-clause BSDL.
"])

-- Test `full_info_email`.
#guard ∀ tdl : Bool, manPage tdl { manInfoFull with email := "email".toList } manCalls =
  text (manExpected tdl ++ [r".SH LEGAL
\fBContact: \fRemail
.br
\fBSeqAn Copyright: \fR2006-2024 Knut Reinert, FU-Berlin; released under the 3-clause BSDL.
"])

end Sharg.Tests
