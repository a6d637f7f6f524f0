import Verif.Model.Mime

/-!
Tests of src/mime/parse.rs about the model, among them the Web Platform tests that the repository contains; see
`Verif/Conform/Basic.lean`.
-/

namespace HT.Conform

/-! src/mime/parse.rs:283-307 -/

example : Mime.parse s!!"text/html" = .ok ⟨s!!"text/html", s!!"text", s!!"html", false, []⟩ := by decide +kernel
example : Mime.parse s!!"text/html;" = .ok ⟨s!!"text/html", s!!"text", s!!"html", false, []⟩ := by decide +kernel
example : (Mime.parse s!!"text/html; charset=utf-8").bind (fun m => (m.paramStr s!!"charset").map fun c =>
    (m.basetype, m.subtype, c)) = .ok (s!!"text", s!!"html", some s!!"utf-8") := by decide +kernel
example : (Mime.parse s!!"text/html; charset=utf-8;").bind (fun m => (m.paramStr s!!"charset").map fun c =>
    (m.basetype, m.subtype, c)) = .ok (s!!"text", s!!"html", some s!!"utf-8") := by decide +kernel
example : ∀ s ∈ [s!!"text", s!!"text/", s!!"t/"], Mime.parse s = .err 500 := by decide +kernel
example : Mime.parse s!!"t/h" = .ok ⟨s!!"t/h", s!!"t", s!!"h", false, []⟩ := by decide +kernel

/-! src/mime/parse.rs:310-507 -/

/-- The text of the media type read from a text. -/
def normal (s : Str) : Res Str := (Mime.parse s).map Mime.display

example : normal s!!"text/html;charset=gbk" = .ok s!!"text/html;charset=gbk" := by decide +kernel
example : normal s!!"TEXT/HTML;CHARSET=GBK" = .ok s!!"text/html;charset=GBK" := by decide +kernel
example : normal s!!"text/html;charset=gbk(" = .ok s!!"text/html;charset=\"gbk(\"" := by decide +kernel
example : normal s!!"text/html;x=(;charset=gbk" = .ok s!!"text/html;x=\"(\";charset=gbk" := by decide +kernel
example : normal s!!"text/html;charset=gbk;charset=windows-1255" = .ok s!!"text/html;charset=gbk" := by decide +kernel
example : normal s!!"text/html;charset=();charset=GBK" = .ok s!!"text/html;charset=\"()\"" := by decide +kernel
example : normal s!!"text/html;charset =gbk" = .ok s!!"text/html" := by decide +kernel
example : normal s!!"text/html ;charset=gbk" = .ok s!!"text/html;charset=gbk" := by decide +kernel
example : normal s!!"text/html; charset=gbk" = .ok s!!"text/html;charset=gbk" := by decide +kernel
example : normal s!!"text/html;charset= gbk" = .ok s!!"text/html;charset=\" gbk\"" := by decide +kernel
example : normal s!!"text/html;charset= \"gbk\"" = .ok s!!"text/html;charset=\" \\\"gbk\\\"\"" := by decide +kernel
example : normal s!!"text/html;charset=\u000Bgbk" = .ok s!!"text/html" := by decide +kernel
example : normal s!!"text/html;charset=\u000Cgbk" = .ok s!!"text/html" := by decide +kernel
example : normal s!!"text/html;\u000Bcharset=gbk" = .ok s!!"text/html" := by decide +kernel
example : normal s!!"text/html;\u000Ccharset=gbk" = .ok s!!"text/html" := by decide +kernel
example : normal s!!"text/html;charset='gbk'" = .ok s!!"text/html;charset='gbk'" := by decide +kernel
example : normal s!!"text/html;charset='gbk" = .ok s!!"text/html;charset='gbk" := by decide +kernel
example : normal s!!"text/html;charset=gbk'" = .ok s!!"text/html;charset=gbk'" := by decide +kernel
example : normal s!!"text/html;charset=';charset=GBK" = .ok s!!"text/html;charset='" := by decide +kernel
example : normal s!!"text/html;test;charset=gbk" = .ok s!!"text/html;charset=gbk" := by decide +kernel
example : normal s!!"text/html;test=;charset=gbk" = .ok s!!"text/html;charset=gbk" := by decide +kernel
example : normal s!!"text/html;';charset=gbk" = .ok s!!"text/html;charset=gbk" := by decide +kernel
example : normal s!!"text/html;\";charset=gbk" = .ok s!!"text/html;charset=gbk" := by decide +kernel
example : normal s!!"text/html ; ; charset=gbk" = .ok s!!"text/html;charset=gbk" := by decide +kernel
example : normal s!!"text/html;;;;charset=gbk" = .ok s!!"text/html;charset=gbk" := by decide +kernel
example : normal s!!"text/html;charset= \"\u007F;charset=GBK" = .ok s!!"text/html;charset=GBK" := by decide +kernel
example : normal s!!"text/html;charset=\"\u007F;charset=foo\";charset=GBK" = .ok s!!"text/html;charset=GBK" := by decide +kernel
example : normal s!!"text/html;charset=\"gbk\"" = .ok s!!"text/html;charset=gbk" := by decide +kernel
example : normal s!!"text/html;charset=\"gbk" = .ok s!!"text/html;charset=gbk" := by decide +kernel
example : normal s!!"text/html;charset=gbk\"" = .ok s!!"text/html;charset=\"gbk\\\"\"" := by decide +kernel
example : normal s!!"text/html;charset=\" gbk\"" = .ok s!!"text/html;charset=\" gbk\"" := by decide +kernel
example : normal s!!"text/html;charset=\"gbk \"" = .ok s!!"text/html;charset=\"gbk \"" := by decide +kernel
example : normal s!!"text/html;charset=\"\\ gbk\"" = .ok s!!"text/html;charset=\" gbk\"" := by decide +kernel
example : normal s!!"text/html;charset=\"\\g\\b\\k\"" = .ok s!!"text/html;charset=gbk" := by decide +kernel
example : normal s!!"text/html;charset=\"gbk\"x" = .ok s!!"text/html;charset=gbk" := by decide +kernel
example : normal s!!"text/html;charset=\"\";charset=GBK" = .ok s!!"text/html;charset=\"\"" := by decide +kernel
example : normal s!!"text/html;charset=\";charset=GBK" = .ok s!!"text/html;charset=\";charset=GBK\"" := by decide +kernel
example : normal s!!"text/html;charset={gbk}" = .ok s!!"text/html;charset=\"{gbk}\"" := by decide +kernel
example : normal s!!"text/html;0123456789012345678901234567890123456789012345678901234567890123456789012345678901234567890123456789012345678901234567890123456789=x;charset=gbk" =
    .ok s!!"text/html;0123456789012345678901234567890123456789012345678901234567890123456789012345678901234567890123456789012345678901234567890123456789=x;charset=gbk" := by decide +kernel
example : normal s!!"0123456789012345678901234567890123456789012345678901234567890123456789012345678901234567890123456789012345678901234567890123456789/0123456789012345678901234567890123456789012345678901234567890123456789012345678901234567890123456789012345678901234567890123456789" =
    .ok s!!"0123456789012345678901234567890123456789012345678901234567890123456789012345678901234567890123456789012345678901234567890123456789/0123456789012345678901234567890123456789012345678901234567890123456789012345678901234567890123456789012345678901234567890123456789" := by decide +kernel
example : normal s!!"!#$%&'*+-.^_`|~0123456789ABCDEFGHIJKLMNOPQRSTUVWXYZabcdefghijklmnopqrstuvwxyz/!#$%&'*+-.^_`|~0123456789ABCDEFGHIJKLMNOPQRSTUVWXYZabcdefghijklmnopqrstuvwxyz;!#$%&'*+-.^_`|~0123456789ABCDEFGHIJKLMNOPQRSTUVWXYZabcdefghijklmnopqrstuvwxyz=!#$%&'*+-.^_`|~0123456789ABCDEFGHIJKLMNOPQRSTUVWXYZabcdefghijklmnopqrstuvwxyz" =
    .ok s!!"!#$%&'*+-.^_`|~0123456789abcdefghijklmnopqrstuvwxyzabcdefghijklmnopqrstuvwxyz/!#$%&'*+-.^_`|~0123456789abcdefghijklmnopqrstuvwxyzabcdefghijklmnopqrstuvwxyz;!#$%&'*+-.^_`|~0123456789abcdefghijklmnopqrstuvwxyzabcdefghijklmnopqrstuvwxyz=!#$%&'*+-.^_`|~0123456789ABCDEFGHIJKLMNOPQRSTUVWXYZabcdefghijklmnopqrstuvwxyz" := by decide +kernel
example : normal s!!"x/x;x=\"\t !\\\"#$%&'()*+,-./0123456789:;<=>?@ABCDEFGHIJKLMNOPQRSTUVWXYZ[\\\\]^_`abcdefghijklmnopqrstuvwxyz{|}~\u0080\u0081\u0082\u0083\u0084\u0085\u0086\u0087\u0088\u0089\u008A\u008B\u008C\u008D\u008E\u008F\u0090\u0091\u0092\u0093\u0094\u0095\u0096\u0097\u0098\u0099\u009A\u009B\u009C\u009D\u009E\u009F\u00A0\u00A1\u00A2\u00A3\u00A4\u00A5\u00A6\u00A7\u00A8\u00A9\u00AA\u00AB\u00AC\u00AD\u00AE\u00AF\u00B0\u00B1\u00B2\u00B3\u00B4\u00B5\u00B6\u00B7\u00B8\u00B9\u00BA\u00BB\u00BC\u00BD\u00BE\u00BF\u00C0\u00C1\u00C2\u00C3\u00C4\u00C5\u00C6\u00C7\u00C8\u00C9\u00CA\u00CB\u00CC\u00CD\u00CE\u00CF\u00D0\u00D1\u00D2\u00D3\u00D4\u00D5\u00D6\u00D7\u00D8\u00D9\u00DA\u00DB\u00DC\u00DD\u00DE\u00DF\u00E0\u00E1\u00E2\u00E3\u00E4\u00E5\u00E6\u00E7\u00E8\u00E9\u00EA\u00EB\u00EC\u00ED\u00EE\u00EF\u00F0\u00F1\u00F2\u00F3\u00F4\u00F5\u00F6\u00F7\u00F8\u00F9\u00FA\u00FB\u00FC\u00FD\u00FE\u00FF\"" =
    .ok s!!"x/x;x=\"\t !\\\"#$%&'()*+,-./0123456789:;<=>?@ABCDEFGHIJKLMNOPQRSTUVWXYZ[\\\\]^_`abcdefghijklmnopqrstuvwxyz{|}~\u0080\u0081\u0082\u0083\u0084\u0085\u0086\u0087\u0088\u0089\u008A\u008B\u008C\u008D\u008E\u008F\u0090\u0091\u0092\u0093\u0094\u0095\u0096\u0097\u0098\u0099\u009A\u009B\u009C\u009D\u009E\u009F\u00A0\u00A1\u00A2\u00A3\u00A4\u00A5\u00A6\u00A7\u00A8\u00A9\u00AA\u00AB\u00AC\u00AD\u00AE\u00AF\u00B0\u00B1\u00B2\u00B3\u00B4\u00B5\u00B6\u00B7\u00B8\u00B9\u00BA\u00BB\u00BC\u00BD\u00BE\u00BF\u00C0\u00C1\u00C2\u00C3\u00C4\u00C5\u00C6\u00C7\u00C8\u00C9\u00CA\u00CB\u00CC\u00CD\u00CE\u00CF\u00D0\u00D1\u00D2\u00D3\u00D4\u00D5\u00D6\u00D7\u00D8\u00D9\u00DA\u00DB\u00DC\u00DD\u00DE\u00DF\u00E0\u00E1\u00E2\u00E3\u00E4\u00E5\u00E6\u00E7\u00E8\u00E9\u00EA\u00EB\u00EC\u00ED\u00EE\u00EF\u00F0\u00F1\u00F2\u00F3\u00F4\u00F5\u00F6\u00F7\u00F8\u00F9\u00FA\u00FB\u00FC\u00FD\u00FE\u00FF\"" := by decide +kernel
example : normal s!!"x/x;test" = .ok s!!"x/x" := by decide +kernel
example : normal s!!"x/x;test=\"\\" = .ok s!!"x/x;test=\"\\\\\"" := by decide +kernel
example : normal s!!"x/x;x= " = .ok s!!"x/x" := by decide +kernel
example : normal s!!"x/x;x=\t" = .ok s!!"x/x" := by decide +kernel
example : normal s!!"x/x\n\r\t ;x=x" = .ok s!!"x/x;x=x" := by decide +kernel
example : normal s!!"\n\r\t x/x;x=x\n\r\t " = .ok s!!"x/x;x=x" := by decide +kernel
example : normal s!!"x/x;\n\r\t x=x\n\r\t ;x=y" = .ok s!!"x/x;x=x" := by decide +kernel
example : normal s!!"text/html;test=\u00FF;charset=gbk" = .ok s!!"text/html;test=\"\u00FF\";charset=gbk" := by decide +kernel
example : normal s!!"x/x;test=\uFFFD;x=x" = .ok s!!"x/x;x=x" := by decide +kernel

example : normal s!!"\u000Bx/x" = .err 500 := by decide +kernel
example : normal s!!"\u000Cx/x" = .err 500 := by decide +kernel
example : normal s!!"x/x\u000B" = .err 500 := by decide +kernel
example : normal s!!"x/x\u000C" = .err 500 := by decide +kernel
example : normal s!!"" = .err 500 := by decide +kernel
example : normal s!!"\t" = .err 500 := by decide +kernel
example : normal s!!"/" = .err 500 := by decide +kernel
example : normal s!!"bogus" = .err 500 := by decide +kernel
example : normal s!!"bogus/" = .err 500 := by decide +kernel
example : normal s!!"bogus/ " = .err 500 := by decide +kernel
example : normal s!!"bogus/bogus/;" = .err 500 := by decide +kernel
example : normal s!!"</>" = .err 500 := by decide +kernel
example : normal s!!"(/)" = .err 500 := by decide +kernel
example : normal s!!"ÿ/ÿ" = .err 500 := by decide +kernel
example : normal s!!"text/html(;doesnot=matter" = .err 500 := by decide +kernel
example : normal s!!"{/}" = .err 500 := by decide +kernel
example : normal s!!"\u0100/\u0100" = .err 500 := by decide +kernel
example : normal s!!"text /html" = .err 500 := by decide +kernel
example : normal s!!"text/ html" = .err 500 := by decide +kernel
example : normal s!!"\"text/html\"" = .err 500 := by decide +kernel

end HT.Conform
