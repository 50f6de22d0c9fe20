import Verif.Model.Convenience
/-
The getters of the plain settings of an archive and of the convenience functions.
-/
namespace Srcml

/-- `srcml_archive_get_src_encoding`, src/libsrcml/srcml_archive.cpp:588-591. -/
def srcml_archive_get_src_encoding (a : Option Archive) : Option Str := a.bind (·.srcEncoding)
/-- `srcml_archive_get_xml_encoding`, src/libsrcml/srcml_archive.cpp:599-602. -/
def srcml_archive_get_xml_encoding (a : Option Archive) : Option Str := a.bind (·.encoding)
/-- `srcml_archive_get_revision`, src/libsrcml/srcml_archive.cpp:610-613. -/
def srcml_archive_get_revision (a : Option Archive) : Option Str := a.bind (·.revision)
/-- `srcml_archive_get_language`, src/libsrcml/srcml_archive.cpp:621-624. -/
def srcml_archive_get_language (a : Option Archive) : Option Str := a.bind (·.language)
/-- `srcml_archive_get_url`, src/libsrcml/srcml_archive.cpp:632-635. -/
def srcml_archive_get_url (a : Option Archive) : Option Str := a.bind (·.url)
/-- `srcml_archive_get_version`, src/libsrcml/srcml_archive.cpp:643-646. -/
def srcml_archive_get_version (a : Option Archive) : Option Str := a.bind (·.version)
/-- `srcml_archive_get_tabstop`, src/libsrcml/srcml_archive.cpp:666-669. -/
def srcml_archive_get_tabstop (a : Option Archive) : Nat := (a.map (·.tabstop)).getD 0
/-- `srcml_archive_get_processing_instruction_target`, src/libsrcml/srcml_archive.cpp:764-767: the archive is not tested. -/
def srcml_archive_get_processing_instruction_target : Option Archive → Run (Option Str)
  | none => .ub
  | some a => .val (a.processingInstruction.map (·.1))
/-- `srcml_archive_get_processing_instruction_data`, src/libsrcml/srcml_archive.cpp:775-778: the archive is not tested. -/
def srcml_archive_get_processing_instruction_data : Option Archive → Run (Option Str)
  | none => .ub
  | some a => .val (a.processingInstruction.map (·.2))
/-- `srcml_archive_get_srcdiff_revision` with the test of the archive, src/libsrcml/srcml_archive.cpp:862-868. -/
def srcml_archive_srcdiff_revision (a : Option Archive) : Nat := (a.map srcml_archive_get_srcdiff_revision).getD 2

/-- `srcml_get_src_encoding`, src/libsrcml/libsrcml.cpp:496. -/
def Conv.srcEncoding (g : Conv) : Option Str := srcml_archive_get_src_encoding (some g.archive)
/-- `srcml_get_xml_encoding`, src/libsrcml/libsrcml.cpp:506. -/
def Conv.xmlEncoding (g : Conv) : Option Str := srcml_archive_get_xml_encoding (some g.archive)
/-- `srcml_get_revision`, src/libsrcml/libsrcml.cpp:516. -/
def Conv.revision (g : Conv) : Option Str := srcml_archive_get_revision (some g.archive)
/-- `srcml_get_language`, src/libsrcml/libsrcml.cpp:526. -/
def Conv.language (g : Conv) : Option Str := srcml_archive_get_language (some g.archive)
/-- `srcml_get_filename`, src/libsrcml/libsrcml.cpp:537. -/
def Conv.filename (g : Conv) : Option Str := srcml_unit_get_filename (some g.unit)
/-- `srcml_get_url`, src/libsrcml/libsrcml.cpp:548. -/
def Conv.url (g : Conv) : Option Str := srcml_archive_get_url (some g.archive)
/-- `srcml_get_version`, src/libsrcml/libsrcml.cpp:558. -/
def Conv.version (g : Conv) : Option Str := srcml_archive_get_version (some g.archive)
/-- `srcml_get_timestamp`, src/libsrcml/libsrcml.cpp:568. -/
def Conv.timestamp (g : Conv) : Option Str := srcml_unit_get_timestamp (some g.unit)
/-- `srcml_get_hash`, src/libsrcml/libsrcml.cpp:578. -/
def Conv.hash (g : Conv) : Option Str := srcml_unit_get_hash (some g.unit)
/-- `srcml_get_loc`, src/libsrcml/libsrcml.cpp:588. -/
def Conv.loc (g : Conv) : Int := srcml_unit_get_loc (some g.unit)
/-- `srcml_get_options`, src/libsrcml/libsrcml.cpp:598. -/
def Conv.options (g : Conv) : Opts := srcml_archive_get_options g.archive
/-- `srcml_get_tabstop`, src/libsrcml/libsrcml.cpp:608. -/
def Conv.tabstop (g : Conv) : Nat := srcml_archive_get_tabstop (some g.archive)
/-- `srcml_get_eol`, src/libsrcml/libsrcml.cpp:467. -/
def Conv.eol (g : Conv) : Nat := srcml_unit_get_eol (some g.unit)
/-- `srcml_get_prefix_from_uri`, src/libsrcml/libsrcml.cpp:642. -/
def Conv.prefixFromUri (g : Conv) (uri : Option Str) : Option Str := srcml_archive_get_prefix_from_uri g.archive uri
/-- `srcml_get_processing_instruction_target`, src/libsrcml/libsrcml.cpp:676. -/
def Conv.instructionTarget (g : Conv) : Run (Option Str) := srcml_archive_get_processing_instruction_target (some g.archive)
/-- `srcml_get_processing_instruction_data`, src/libsrcml/libsrcml.cpp:687. -/
def Conv.instructionData (g : Conv) : Run (Option Str) := srcml_archive_get_processing_instruction_data (some g.archive)
/-- `srcml_get_srcdiff_revision`, src/libsrcml/libsrcml.cpp:699. -/
def Conv.srcdiffRevision (g : Conv) : Nat := srcml_archive_srcdiff_revision (some g.archive)
/-- `srcml_check_extension`, src/libsrcml/libsrcml.cpp:770. -/
def Conv.checkExtension (g : Conv) (filename : Option Str) : Option Str := srcml_archive_check_extension g.archive.registeredLanguages filename

end Srcml
