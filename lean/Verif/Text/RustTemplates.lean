import Verif.Text.Template

/-!
# The templates of the Rust generator

/repo/generator/rust/templates/*.templ, copied without change (by tools/mkrusttemplates.txt), and what they parse to; the
kernel checks the parsing.  /repo/v2/generator/rust/templates has the same files.  `base.templ` is the one that is executed
(generator.go 143); the others contain definitions.
-/

namespace RustTempl

open Tmpl

/-- /repo/generator/rust/templates/base.templ -/
def baseSrc : Bytes := str!"{{template \"headers\" .}}

{{template \"imports\" .}}

{{template \"enums\" .}}

{{template \"messages\" .}}
"

def base_t0 : Bytes := str!"\n\n"

def base_t1 : Bytes := str!"\n\n"

def base_t2 : Bytes := str!"\n\n"

def base_t3 : Bytes := str!"\n"

def baseBody : Body :=
  .template id!"headers" (.path none [] .nil) <| .text base_t0 <| .template id!"imports" (.path none [] .nil) <| .text base_t1 <| .template id!"enums" (.path none [] .nil) <| .text base_t2 <| .template id!"messages" (.path none [] .nil) <| .text base_t3 <| .nil

theorem base_parses : parseBody baseSrc = some baseBody := by decide +kernel

/-- /repo/generator/rust/templates/decode.templ -/
def decodeSrc : Bytes := str!"{{define \"decode\"}}

impl Decode for {{ CamelCase .FullName }} {
    fn decode (b: &mut Cursor<&mut Vec<u8>>) -> Result<Option<{{ CamelCase .FullName }}>, Box<dyn std::error::Error>> {
        if b.decode_none() {
            return Ok(None);
        }

        if let Ok(error) = b.decode_error() {
            return Err(error);
        }


        {{ $decoding := GetDecodingFields .Fields -}}
        {{ range $field := $decoding.SliceFields -}}
        {{ $val := FindValue $field }}
        fn {{ SnakeCaseName .Name }}_decode(b: &mut Cursor<&mut Vec<u8>>) -> Result<Option<{{ $val }}>, Box<dyn std::error::Error>> {
            {{ $kind := GetKind $field.Kind -}}
            {{ $decoder := GetLUTDecoder $field.Kind -}}

            let {{ SnakeCaseName $field.Name }}_size = b.decode_array({{ $kind }})?;
            let mut temp = Vec::with_capacity({{ SnakeCaseName $field.Name }}_size);
            for _ in 0..{{ SnakeCaseName $field.Name }}_size {
                {{ if eq $field.Kind 11 -}} {{/* protoreflect.MessageKind */ -}}
                temp.push({{ CamelCase $field.Message.FullName }}::decode(b)?.ok_or(DecodingError::InvalidArray)?);
                {{ else -}}
                temp.push(b{{ $decoder }}()?);
                {{ end -}}
            }
            Ok(Some(temp))
        }
        {{ end -}}
        {{ range $field := $decoding.MessageFields -}}
            {{ if $field.IsMap -}}
                {{ template \"decodeMap\" $field -}}
            {{ end -}}
        {{ end -}}
        Ok(Some({{ CamelCase .FullName }}{
            {{ range $field := $decoding.Other -}}
                {{ $decoder := GetLUTDecoder $field.Kind -}}
                {{ if eq $field.Kind 14 -}}  {{/* protoreflect.EnumKind */ -}}
                {{ SnakeCaseName $field.Name }}: {{ FindValue $field }}::try_from(b.decode_u32()?).ok().ok_or(DecodingError::InvalidEnum)?,
                {{ else -}}
                    {{ SnakeCaseName $field.Name }}: b{{ $decoder }}()?,
                {{end -}}
            {{end -}}
            {{ range $field := $decoding.SliceFields -}}
                {{ SnakeCaseName $field.Name }}: {{ SnakeCaseName $field.Name }}_decode(b)?.ok_or(DecodingError::InvalidArray)?,
            {{ end -}}
            {{ range $field := $decoding.MessageFields -}}
                {{ if $field.Message.IsMapEntry -}}
                    {{ SnakeCaseName $field.Name }}: {{ SnakeCaseName $field.Name }}_decode(b)?.ok_or(DecodingError::InvalidMap)?,
                {{ else -}}
                    {{ SnakeCaseName $field.Name }}: {{ CamelCase $field.Message.FullName }}::decode(b)?.ok_or(DecodingError::InvalidStruct)?,
                {{ end -}}
            {{ end -}}
        }))
    }
}
{{end}}
"

def decode_t0 : Bytes := str!"\n\nimpl Decode for "

def decode_t1 : Bytes := str!" {\n    fn decode (b: &mut Cursor<&mut Vec<u8>>) -> Result<Option<"

def decode_t2 : Bytes := str!">, Box<dyn std::error::Error>> {\n        if b.decode_none() {\n            return Ok(None);\n        }\n\n        if let Ok(error) = b.decode_error() {\n            return Err(error);\n        }\n\n\n        "

def decode_t3 : Bytes := str!"\n        fn "

def decode_t4 : Bytes := str!"_decode(b: &mut Cursor<&mut Vec<u8>>) -> Result<Option<"

def decode_t5 : Bytes := str!">, Box<dyn std::error::Error>> {\n            "

def decode_t6 : Bytes := str!"let "

def decode_t7 : Bytes := str!"_size = b.decode_array("

def decode_t8 : Bytes := str!")?;\n            let mut temp = Vec::with_capacity("

def decode_t9 : Bytes := str!"_size);\n            for _ in 0.."

def decode_t10 : Bytes := str!"_size {\n                "

def decode_t11 : Bytes := str!"temp.push("

def decode_t12 : Bytes := str!"::decode(b)?.ok_or(DecodingError::InvalidArray)?);\n                "

def decode_t13 : Bytes := str!"temp.push(b"

def decode_t14 : Bytes := str!"()?);\n                "

def decode_t15 : Bytes := str!"}\n            Ok(Some(temp))\n        }\n        "

def decode_r0 : Body :=
  .assign id!"val" (.call id!"FindValue" (.cons (.path (some id!"field") [] .nil) .nil)) <| .text decode_t3 <| .action (.call id!"SnakeCaseName" (.cons (.path none [id!"Name"] .nil) .nil)) <| .text decode_t4 <| .action (.path (some id!"val") [] .nil) <| .text decode_t5 <| .assign id!"kind" (.call id!"GetKind" (.cons (.path (some id!"field") [id!"Kind"] .nil) .nil)) <| .assign id!"decoder" (.call id!"GetLUTDecoder" (.cons (.path (some id!"field") [id!"Kind"] .nil) .nil)) <| .text decode_t6 <| .action (.call id!"SnakeCaseName" (.cons (.path (some id!"field") [id!"Name"] .nil) .nil)) <| .text decode_t7 <| .action (.path (some id!"kind") [] .nil) <| .text decode_t8 <| .action (.call id!"SnakeCaseName" (.cons (.path (some id!"field") [id!"Name"] .nil) .nil)) <| .text decode_t9 <| .action (.call id!"SnakeCaseName" (.cons (.path (some id!"field") [id!"Name"] .nil) .nil)) <| .text decode_t10 <| .ite (.call id!"eq" (.cons (.path (some id!"field") [id!"Kind"] .nil) (.cons (.num 11) .nil))) (.text decode_t11 <| .action (.call id!"CamelCase" (.cons (.path (some id!"field") [id!"Message", id!"FullName"] .nil) .nil)) <| .text decode_t12 <| .nil) (.text decode_t13 <| .action (.path (some id!"decoder") [] .nil) <| .text decode_t14 <| .nil) <| .text decode_t15 <| .nil

def decode_r1 : Body :=
  .ite (.path (some id!"field") [id!"IsMap"] .nil) (.template id!"decodeMap" (.path (some id!"field") [] .nil) <| .nil) (.nil) <| .nil

def decode_t16 : Bytes := str!"Ok(Some("

def decode_t17 : Bytes := str!"{\n            "

def decode_t18 : Bytes := str!": "

def decode_t19 : Bytes := str!"::try_from(b.decode_u32()?).ok().ok_or(DecodingError::InvalidEnum)?,\n                "

def decode_t20 : Bytes := str!": b"

def decode_t21 : Bytes := str!"()?,\n                "

def decode_r2 : Body :=
  .assign id!"decoder" (.call id!"GetLUTDecoder" (.cons (.path (some id!"field") [id!"Kind"] .nil) .nil)) <| .ite (.call id!"eq" (.cons (.path (some id!"field") [id!"Kind"] .nil) (.cons (.num 14) .nil))) (.action (.call id!"SnakeCaseName" (.cons (.path (some id!"field") [id!"Name"] .nil) .nil)) <| .text decode_t18 <| .action (.call id!"FindValue" (.cons (.path (some id!"field") [] .nil) .nil)) <| .text decode_t19 <| .nil) (.action (.call id!"SnakeCaseName" (.cons (.path (some id!"field") [id!"Name"] .nil) .nil)) <| .text decode_t20 <| .action (.path (some id!"decoder") [] .nil) <| .text decode_t21 <| .nil) <| .nil

def decode_t22 : Bytes := str!": "

def decode_t23 : Bytes := str!"_decode(b)?.ok_or(DecodingError::InvalidArray)?,\n            "

def decode_r3 : Body :=
  .action (.call id!"SnakeCaseName" (.cons (.path (some id!"field") [id!"Name"] .nil) .nil)) <| .text decode_t22 <| .action (.call id!"SnakeCaseName" (.cons (.path (some id!"field") [id!"Name"] .nil) .nil)) <| .text decode_t23 <| .nil

def decode_t24 : Bytes := str!": "

def decode_t25 : Bytes := str!"_decode(b)?.ok_or(DecodingError::InvalidMap)?,\n                "

def decode_t26 : Bytes := str!": "

def decode_t27 : Bytes := str!"::decode(b)?.ok_or(DecodingError::InvalidStruct)?,\n                "

def decode_r4 : Body :=
  .ite (.path (some id!"field") [id!"Message", id!"IsMapEntry"] .nil) (.action (.call id!"SnakeCaseName" (.cons (.path (some id!"field") [id!"Name"] .nil) .nil)) <| .text decode_t24 <| .action (.call id!"SnakeCaseName" (.cons (.path (some id!"field") [id!"Name"] .nil) .nil)) <| .text decode_t25 <| .nil) (.action (.call id!"SnakeCaseName" (.cons (.path (some id!"field") [id!"Name"] .nil) .nil)) <| .text decode_t26 <| .action (.call id!"CamelCase" (.cons (.path (some id!"field") [id!"Message", id!"FullName"] .nil) .nil)) <| .text decode_t27 <| .nil) <| .nil

def decode_t28 : Bytes := str!"}))\n    }\n}\n"

def decodeBody : Body :=
  .text decode_t0 <| .action (.call id!"CamelCase" (.cons (.path none [id!"FullName"] .nil) .nil)) <| .text decode_t1 <| .action (.call id!"CamelCase" (.cons (.path none [id!"FullName"] .nil) .nil)) <| .text decode_t2 <| .assign id!"decoding" (.call id!"GetDecodingFields" (.cons (.path none [id!"Fields"] .nil) .nil)) <| .range none id!"field" (.path (some id!"decoding") [id!"SliceFields"] .nil) decode_r0 <| .range none id!"field" (.path (some id!"decoding") [id!"MessageFields"] .nil) decode_r1 <| .text decode_t16 <| .action (.call id!"CamelCase" (.cons (.path none [id!"FullName"] .nil) .nil)) <| .text decode_t17 <| .range none id!"field" (.path (some id!"decoding") [id!"Other"] .nil) decode_r2 <| .range none id!"field" (.path (some id!"decoding") [id!"SliceFields"] .nil) decode_r3 <| .range none id!"field" (.path (some id!"decoding") [id!"MessageFields"] .nil) decode_r4 <| .text decode_t28 <| .nil

theorem decode_parses : parseDefinitions decodeSrc = some [(id!"decode", decodeBody)] := by decide +kernel

/-- /repo/generator/rust/templates/decodeMap.templ -/
def decodeMapSrc : Bytes := str!"{{define \"decodeMap\"}}
{{ $mapKeyValue := FindValue .MapKey }}
{{ $mapValueValue := FindValue .MapValue }}
fn {{ SnakeCaseName .Name }}_decode(b: &mut Cursor<&mut Vec<u8>>) -> Result<Option<HashMap<{{ $mapKeyValue }}, {{ $mapValueValue }}>>, Box<dyn std::error::Error>> {
    if b.decode_none() {
        return Ok(None);
    }

    {{ $keyDecoder := GetLUTDecoder .MapKey.Kind -}}
    {{ $valDecoder := GetLUTDecoder .MapValue.Kind -}}

    {{ $keyKind := GetKind .MapKey.Kind -}}
    {{ $valKind := GetKind .MapValue.Kind -}}
    let size = b.decode_map({{ $keyKind }}, {{ $valKind }})
    .ok().ok_or(DecodingError::InvalidU32)?;
    let mut map = HashMap::new();
    for _ in 0..size {
        {{ if and (eq $keyDecoder \"\") (eq .MapKey.Kind 11) -}} {{/* protoreflect.MessageKind */ -}}
        let k = {{ CamelCase .MapKey.Message.FullName }}::decode(b)?.ok_or(DecodingError::InvalidMap)?';
        {{else -}}
            {{ if eq .MapKey.Kind 14 -}}  {{/* protoreflect.EnumKind */ -}}
            let k = {{ $mapKeyValue }}::try_from(b{{$keyDecoder}}()?).ok().ok_or(DecodingError::InvalidMap)?;
            {{else -}}
                let k = b{{$keyDecoder}}()?;
            {{end -}}
        {{end -}}
        {{ if and (eq $valDecoder \"\") (eq .MapValue.Kind 11) -}} {{/* protoreflect.MessageKind */ -}}
        let v = {{ CamelCase .MapValue.Message.FullName }}::decode(b)?.ok_or(DecodingError::InvalidMap)?;
        {{else -}}
            {{ if eq .MapValue.Kind 14 -}} {{/* protoreflect.EnumKind */ -}}
            let v = {{ $mapValueValue }}::try_from(b{{$valDecoder}}()?).ok().ok_or(DecodingError::InvalidMap)?;
            {{else -}}
                let v = b{{$valDecoder}}()?;
            {{end -}}
        {{end -}}
        map.insert(k, v);
    }
    Ok(Some(map))
}
{{end}}"

def decodeMap_t0 : Bytes := str!"\n"

def decodeMap_t1 : Bytes := str!"\n"

def decodeMap_t2 : Bytes := str!"\nfn "

def decodeMap_t3 : Bytes := str!"_decode(b: &mut Cursor<&mut Vec<u8>>) -> Result<Option<HashMap<"

def decodeMap_t4 : Bytes := str!", "

def decodeMap_t5 : Bytes := str!">>, Box<dyn std::error::Error>> {\n    if b.decode_none() {\n        return Ok(None);\n    }\n\n    "

def decodeMap_t6 : Bytes := str!"let size = b.decode_map("

def decodeMap_t7 : Bytes := str!", "

def decodeMap_t8 : Bytes := str!")\n    .ok().ok_or(DecodingError::InvalidU32)?;\n    let mut map = HashMap::new();\n    for _ in 0..size {\n        "

def decodeMap_t9 : Bytes := str!"let k = "

def decodeMap_t10 : Bytes := str!"::decode(b)?.ok_or(DecodingError::InvalidMap)?';\n        "

def decodeMap_t11 : Bytes := str!"let k = "

def decodeMap_t12 : Bytes := str!"::try_from(b"

def decodeMap_t13 : Bytes := str!"()?).ok().ok_or(DecodingError::InvalidMap)?;\n            "

def decodeMap_t14 : Bytes := str!"let k = b"

def decodeMap_t15 : Bytes := str!"()?;\n            "

def decodeMap_t16 : Bytes := str!"let v = "

def decodeMap_t17 : Bytes := str!"::decode(b)?.ok_or(DecodingError::InvalidMap)?;\n        "

def decodeMap_t18 : Bytes := str!"let v = "

def decodeMap_t19 : Bytes := str!"::try_from(b"

def decodeMap_t20 : Bytes := str!"()?).ok().ok_or(DecodingError::InvalidMap)?;\n            "

def decodeMap_t21 : Bytes := str!"let v = b"

def decodeMap_t22 : Bytes := str!"()?;\n            "

def decodeMap_t23 : Bytes := str!"map.insert(k, v);\n    }\n    Ok(Some(map))\n}\n"

def decodeMapBody : Body :=
  .text decodeMap_t0 <| .assign id!"mapKeyValue" (.call id!"FindValue" (.cons (.path none [id!"MapKey"] .nil) .nil)) <| .text decodeMap_t1 <| .assign id!"mapValueValue" (.call id!"FindValue" (.cons (.path none [id!"MapValue"] .nil) .nil)) <| .text decodeMap_t2 <| .action (.call id!"SnakeCaseName" (.cons (.path none [id!"Name"] .nil) .nil)) <| .text decodeMap_t3 <| .action (.path (some id!"mapKeyValue") [] .nil) <| .text decodeMap_t4 <| .action (.path (some id!"mapValueValue") [] .nil) <| .text decodeMap_t5 <| .assign id!"keyDecoder" (.call id!"GetLUTDecoder" (.cons (.path none [id!"MapKey", id!"Kind"] .nil) .nil)) <| .assign id!"valDecoder" (.call id!"GetLUTDecoder" (.cons (.path none [id!"MapValue", id!"Kind"] .nil) .nil)) <| .assign id!"keyKind" (.call id!"GetKind" (.cons (.path none [id!"MapKey", id!"Kind"] .nil) .nil)) <| .assign id!"valKind" (.call id!"GetKind" (.cons (.path none [id!"MapValue", id!"Kind"] .nil) .nil)) <| .text decodeMap_t6 <| .action (.path (some id!"keyKind") [] .nil) <| .text decodeMap_t7 <| .action (.path (some id!"valKind") [] .nil) <| .text decodeMap_t8 <| .ite (.call id!"and" (.cons (.call id!"eq" (.cons (.path (some id!"keyDecoder") [] .nil) (.cons (.str str!"") .nil))) (.cons (.call id!"eq" (.cons (.path none [id!"MapKey", id!"Kind"] .nil) (.cons (.num 11) .nil))) .nil))) (.text decodeMap_t9 <| .action (.call id!"CamelCase" (.cons (.path none [id!"MapKey", id!"Message", id!"FullName"] .nil) .nil)) <| .text decodeMap_t10 <| .nil) (.ite (.call id!"eq" (.cons (.path none [id!"MapKey", id!"Kind"] .nil) (.cons (.num 14) .nil))) (.text decodeMap_t11 <| .action (.path (some id!"mapKeyValue") [] .nil) <| .text decodeMap_t12 <| .action (.path (some id!"keyDecoder") [] .nil) <| .text decodeMap_t13 <| .nil) (.text decodeMap_t14 <| .action (.path (some id!"keyDecoder") [] .nil) <| .text decodeMap_t15 <| .nil) <| .nil) <| .ite (.call id!"and" (.cons (.call id!"eq" (.cons (.path (some id!"valDecoder") [] .nil) (.cons (.str str!"") .nil))) (.cons (.call id!"eq" (.cons (.path none [id!"MapValue", id!"Kind"] .nil) (.cons (.num 11) .nil))) .nil))) (.text decodeMap_t16 <| .action (.call id!"CamelCase" (.cons (.path none [id!"MapValue", id!"Message", id!"FullName"] .nil) .nil)) <| .text decodeMap_t17 <| .nil) (.ite (.call id!"eq" (.cons (.path none [id!"MapValue", id!"Kind"] .nil) (.cons (.num 14) .nil))) (.text decodeMap_t18 <| .action (.path (some id!"mapValueValue") [] .nil) <| .text decodeMap_t19 <| .action (.path (some id!"valDecoder") [] .nil) <| .text decodeMap_t20 <| .nil) (.text decodeMap_t21 <| .action (.path (some id!"valDecoder") [] .nil) <| .text decodeMap_t22 <| .nil) <| .nil) <| .text decodeMap_t23 <| .nil

theorem decodeMap_parses : parseDefinitions decodeMapSrc = some [(id!"decodeMap", decodeMapBody)] := by decide +kernel

/-- /repo/generator/rust/templates/encode.templ -/
def encodeSrc : Bytes := str!"{{define \"encode\"}}
impl Encode for {{ CamelCase .FullName }} {
    fn encode<'a> (&'a self, b: &'a mut Cursor<Vec<u8>>) -> Result<&mut Cursor<Vec<u8>>, Box<dyn std::error::Error>> {
        {{ $encoding := GetEncodingFields .Fields -}}
        {{ if $encoding.Values -}}
            b{{ range $val := $encoding.Values -}}{{ $val -}}?{{end -}};
        {{ end -}}
        {{ if $encoding.SliceFields -}}
            {{template \"encodeSlices\" $encoding -}}
        {{end -}}
        {{ if $encoding.MessageFields -}}
            {{template \"encodeMessages\" $encoding -}}
        {{end -}}
        Ok(b)
    }
}
{{end}}

{{define \"encodeSlices\"}}
    {{ range $field := .SliceFields -}}
        {{ $encoder := GetLUTEncoder $field.Kind -}}

        {{ if and (eq $encoder \"\") (eq $field.Kind 11) -}} {{/* protoreflect.MessageKind */ -}}
        b.encode_array(self.{{ SnakeCaseName $field.Name}}.len(), Kind::Any)?;
        for item in &self.{{ SnakeCaseName $field.Name}} {
            item.encode(b)?;
        }
        {{else -}}
        b.encode_array(self.{{ SnakeCaseName $field.Name}}.len(), {{ GetKindLUT $field.Kind }})?;
        for item in &self.{{ SnakeCaseName $field.Name}} {
            {{ if eq $field.Kind 9 -}} {{/* protoreflect.StringKind */ -}}
            b{{$encoder}}(&item)?;
            {{ else -}}
            b{{$encoder}}(item)?;
            {{ end -}}
        }
        {{end -}}
    {{end -}}
{{end}}


{{define \"encodeMessages\"}}
    {{ range $field := .MessageFields -}}
        {{ if $field.IsMap -}}
            {{ $keyKind := GetKind $field.MapKey.Kind -}}
            {{ $valKind := GetKind $field.MapValue.Kind -}}
            b.encode_map(self.{{ SnakeCaseName $field.Name }}.len(), {{ $keyKind }}, {{ $valKind }})?;
            for (k, v) in &self.{{ SnakeCaseName $field.Name }} {
            {{ $keyEncoder := GetLUTEncoder $field.MapKey.Kind -}}
            {{ if and (eq $keyEncoder \"\") (eq $field.MapKey.Kind 11) -}} {{/* protoreflect.MessageKind */ -}}
            k.encode(b)?;
            {{else -}}
                {{ if eq $field.MapKey.Kind 14 -}}  {{/* protoreflect.EnumKind */ -}}
                b.encode_u32(k as u32)?;
                {{ else if eq $field.MapKey.Kind 9 -}}  {{/* protoreflect.StringsKind */ -}}
                b{{$keyEncoder}}(&k)?;
                {{else -}}
                    b{{$keyEncoder}}(k)?;
                {{end -}}
            {{end -}}
            {{ $valEncoder := GetLUTEncoder $field.MapValue.Kind -}}
            {{ if and (eq $valEncoder \"\") (eq $field.MapValue.Kind 11) -}} {{/* protoreflect.MessageKind */ -}}
            v.encode(b)?;
            {{else -}}
                {{ if eq $field.MapValue.Kind 14 -}}  {{/* protoreflect.EnumKind */ -}}
                b.encode_u32(*v as u32)?;
                {{else -}}
                    b{{$valEncoder}}(*v)?;
                {{end -}}
            {{end -}}
            }
        {{else -}}
            self.{{ SnakeCaseName $field.Name }}.encode(b)?;
        {{end -}}
    {{end -}}
{{end}}"

def encode_t0 : Bytes := str!"\nimpl Encode for "

def encode_t1 : Bytes := str!" {\n    fn encode<'a> (&'a self, b: &'a mut Cursor<Vec<u8>>) -> Result<&mut Cursor<Vec<u8>>, Box<dyn std::error::Error>> {\n        "

def encode_t2 : Bytes := str!"b"

def encode_t3 : Bytes := str!"?"

def encode_r0 : Body :=
  .action (.path (some id!"val") [] .nil) <| .text encode_t3 <| .nil

def encode_t4 : Bytes := str!";\n        "

def encode_t5 : Bytes := str!"Ok(b)\n    }\n}\n"

def encodeBody : Body :=
  .text encode_t0 <| .action (.call id!"CamelCase" (.cons (.path none [id!"FullName"] .nil) .nil)) <| .text encode_t1 <| .assign id!"encoding" (.call id!"GetEncodingFields" (.cons (.path none [id!"Fields"] .nil) .nil)) <| .ite (.path (some id!"encoding") [id!"Values"] .nil) (.text encode_t2 <| .range none id!"val" (.path (some id!"encoding") [id!"Values"] .nil) encode_r0 <| .text encode_t4 <| .nil) (.nil) <| .ite (.path (some id!"encoding") [id!"SliceFields"] .nil) (.template id!"encodeSlices" (.path (some id!"encoding") [] .nil) <| .nil) (.nil) <| .ite (.path (some id!"encoding") [id!"MessageFields"] .nil) (.template id!"encodeMessages" (.path (some id!"encoding") [] .nil) <| .nil) (.nil) <| .text encode_t5 <| .nil

def encodeSlices_t0 : Bytes := str!"\n    "

def encodeSlices_t1 : Bytes := str!"b.encode_array(self."

def encodeSlices_t2 : Bytes := str!".len(), Kind::Any)?;\n        for item in &self."

def encodeSlices_t3 : Bytes := str!" {\n            item.encode(b)?;\n        }\n        "

def encodeSlices_t4 : Bytes := str!"b.encode_array(self."

def encodeSlices_t5 : Bytes := str!".len(), "

def encodeSlices_t6 : Bytes := str!")?;\n        for item in &self."

def encodeSlices_t7 : Bytes := str!" {\n            "

def encodeSlices_t8 : Bytes := str!"b"

def encodeSlices_t9 : Bytes := str!"(&item)?;\n            "

def encodeSlices_t10 : Bytes := str!"b"

def encodeSlices_t11 : Bytes := str!"(item)?;\n            "

def encodeSlices_t12 : Bytes := str!"}\n        "

def encodeSlices_r0 : Body :=
  .assign id!"encoder" (.call id!"GetLUTEncoder" (.cons (.path (some id!"field") [id!"Kind"] .nil) .nil)) <| .ite (.call id!"and" (.cons (.call id!"eq" (.cons (.path (some id!"encoder") [] .nil) (.cons (.str str!"") .nil))) (.cons (.call id!"eq" (.cons (.path (some id!"field") [id!"Kind"] .nil) (.cons (.num 11) .nil))) .nil))) (.text encodeSlices_t1 <| .action (.call id!"SnakeCaseName" (.cons (.path (some id!"field") [id!"Name"] .nil) .nil)) <| .text encodeSlices_t2 <| .action (.call id!"SnakeCaseName" (.cons (.path (some id!"field") [id!"Name"] .nil) .nil)) <| .text encodeSlices_t3 <| .nil) (.text encodeSlices_t4 <| .action (.call id!"SnakeCaseName" (.cons (.path (some id!"field") [id!"Name"] .nil) .nil)) <| .text encodeSlices_t5 <| .action (.call id!"GetKindLUT" (.cons (.path (some id!"field") [id!"Kind"] .nil) .nil)) <| .text encodeSlices_t6 <| .action (.call id!"SnakeCaseName" (.cons (.path (some id!"field") [id!"Name"] .nil) .nil)) <| .text encodeSlices_t7 <| .ite (.call id!"eq" (.cons (.path (some id!"field") [id!"Kind"] .nil) (.cons (.num 9) .nil))) (.text encodeSlices_t8 <| .action (.path (some id!"encoder") [] .nil) <| .text encodeSlices_t9 <| .nil) (.text encodeSlices_t10 <| .action (.path (some id!"encoder") [] .nil) <| .text encodeSlices_t11 <| .nil) <| .text encodeSlices_t12 <| .nil) <| .nil

def encodeSlicesBody : Body :=
  .text encodeSlices_t0 <| .range none id!"field" (.path none [id!"SliceFields"] .nil) encodeSlices_r0 <| .nil

def encodeMessages_t0 : Bytes := str!"\n    "

def encodeMessages_t1 : Bytes := str!"b.encode_map(self."

def encodeMessages_t2 : Bytes := str!".len(), "

def encodeMessages_t3 : Bytes := str!", "

def encodeMessages_t4 : Bytes := str!")?;\n            for (k, v) in &self."

def encodeMessages_t5 : Bytes := str!" {\n            "

def encodeMessages_t6 : Bytes := str!"k.encode(b)?;\n            "

def encodeMessages_t7 : Bytes := str!"b.encode_u32(k as u32)?;\n                "

def encodeMessages_t8 : Bytes := str!"b"

def encodeMessages_t9 : Bytes := str!"(&k)?;\n                "

def encodeMessages_t10 : Bytes := str!"b"

def encodeMessages_t11 : Bytes := str!"(k)?;\n                "

def encodeMessages_t12 : Bytes := str!"v.encode(b)?;\n            "

def encodeMessages_t13 : Bytes := str!"b.encode_u32(*v as u32)?;\n                "

def encodeMessages_t14 : Bytes := str!"b"

def encodeMessages_t15 : Bytes := str!"(*v)?;\n                "

def encodeMessages_t16 : Bytes := str!"}\n        "

def encodeMessages_t17 : Bytes := str!"self."

def encodeMessages_t18 : Bytes := str!".encode(b)?;\n        "

def encodeMessages_r0 : Body :=
  .ite (.path (some id!"field") [id!"IsMap"] .nil) (.assign id!"keyKind" (.call id!"GetKind" (.cons (.path (some id!"field") [id!"MapKey", id!"Kind"] .nil) .nil)) <| .assign id!"valKind" (.call id!"GetKind" (.cons (.path (some id!"field") [id!"MapValue", id!"Kind"] .nil) .nil)) <| .text encodeMessages_t1 <| .action (.call id!"SnakeCaseName" (.cons (.path (some id!"field") [id!"Name"] .nil) .nil)) <| .text encodeMessages_t2 <| .action (.path (some id!"keyKind") [] .nil) <| .text encodeMessages_t3 <| .action (.path (some id!"valKind") [] .nil) <| .text encodeMessages_t4 <| .action (.call id!"SnakeCaseName" (.cons (.path (some id!"field") [id!"Name"] .nil) .nil)) <| .text encodeMessages_t5 <| .assign id!"keyEncoder" (.call id!"GetLUTEncoder" (.cons (.path (some id!"field") [id!"MapKey", id!"Kind"] .nil) .nil)) <| .ite (.call id!"and" (.cons (.call id!"eq" (.cons (.path (some id!"keyEncoder") [] .nil) (.cons (.str str!"") .nil))) (.cons (.call id!"eq" (.cons (.path (some id!"field") [id!"MapKey", id!"Kind"] .nil) (.cons (.num 11) .nil))) .nil))) (.text encodeMessages_t6 <| .nil) (.ite (.call id!"eq" (.cons (.path (some id!"field") [id!"MapKey", id!"Kind"] .nil) (.cons (.num 14) .nil))) (.text encodeMessages_t7 <| .nil) (.ite (.call id!"eq" (.cons (.path (some id!"field") [id!"MapKey", id!"Kind"] .nil) (.cons (.num 9) .nil))) (.text encodeMessages_t8 <| .action (.path (some id!"keyEncoder") [] .nil) <| .text encodeMessages_t9 <| .nil) (.text encodeMessages_t10 <| .action (.path (some id!"keyEncoder") [] .nil) <| .text encodeMessages_t11 <| .nil) <| .nil) <| .nil) <| .assign id!"valEncoder" (.call id!"GetLUTEncoder" (.cons (.path (some id!"field") [id!"MapValue", id!"Kind"] .nil) .nil)) <| .ite (.call id!"and" (.cons (.call id!"eq" (.cons (.path (some id!"valEncoder") [] .nil) (.cons (.str str!"") .nil))) (.cons (.call id!"eq" (.cons (.path (some id!"field") [id!"MapValue", id!"Kind"] .nil) (.cons (.num 11) .nil))) .nil))) (.text encodeMessages_t12 <| .nil) (.ite (.call id!"eq" (.cons (.path (some id!"field") [id!"MapValue", id!"Kind"] .nil) (.cons (.num 14) .nil))) (.text encodeMessages_t13 <| .nil) (.text encodeMessages_t14 <| .action (.path (some id!"valEncoder") [] .nil) <| .text encodeMessages_t15 <| .nil) <| .nil) <| .text encodeMessages_t16 <| .nil) (.text encodeMessages_t17 <| .action (.call id!"SnakeCaseName" (.cons (.path (some id!"field") [id!"Name"] .nil) .nil)) <| .text encodeMessages_t18 <| .nil) <| .nil

def encodeMessagesBody : Body :=
  .text encodeMessages_t0 <| .range none id!"field" (.path none [id!"MessageFields"] .nil) encodeMessages_r0 <| .nil

theorem encode_parses : parseDefinitions encodeSrc = some [(id!"encode", encodeBody), (id!"encodeSlices", encodeSlicesBody), (id!"encodeMessages", encodeMessagesBody)] := by decide +kernel

/-- /repo/generator/rust/templates/enums.templ -/
def enumsSrc : Bytes := str!"{{define \"enums\"}}
{{range $i, $e := (MakeIterable .enums.Len) -}}
{{ $enum := ($.enums.Get $i) -}}
{{template \"enum\" $enum}}
{{end -}}
{{end}}

{{define \"enum\"}}
{{ $enumName := (CamelCase $.FullName) -}}
#[derive(Debug, Eq, PartialEq, TryFromPrimitive, Copy, Clone)]
#[repr(u32)]
pub enum {{ $enumName }} {
    {{range $i, $v := (MakeIterable $.Values.Len) -}}
        {{ $val := ($.Values.Get $i) -}}
        {{$val.Name}} = {{ $i }},
    {{end -}}
}
{{end}}

"

def enums_t0 : Bytes := str!"\n"

def enums_t1 : Bytes := str!"\n"

def enums_r0 : Body :=
  .assign id!"enum" (.path (some 0) [id!"enums", id!"Get"] (.cons (.path (some id!"i") [] .nil) .nil)) <| .template id!"enum" (.path (some id!"enum") [] .nil) <| .text enums_t1 <| .nil

def enumsBody : Body :=
  .text enums_t0 <| .range (some id!"i") id!"e" (.call id!"MakeIterable" (.cons (.path none [id!"enums", id!"Len"] .nil) .nil)) enums_r0 <| .nil

def enum_t0 : Bytes := str!"\n"

def enum_t1 : Bytes := str!"#[derive(Debug, Eq, PartialEq, TryFromPrimitive, Copy, Clone)]\n#[repr(u32)]\npub enum "

def enum_t2 : Bytes := str!" {\n    "

def enum_t3 : Bytes := str!" = "

def enum_t4 : Bytes := str!",\n    "

def enum_r0 : Body :=
  .assign id!"val" (.path (some 0) [id!"Values", id!"Get"] (.cons (.path (some id!"i") [] .nil) .nil)) <| .action (.path (some id!"val") [id!"Name"] .nil) <| .text enum_t3 <| .action (.path (some id!"i") [] .nil) <| .text enum_t4 <| .nil

def enum_t5 : Bytes := str!"}\n"

def enumBody : Body :=
  .text enum_t0 <| .assign id!"enumName" (.call id!"CamelCase" (.cons (.path (some 0) [id!"FullName"] .nil) .nil)) <| .text enum_t1 <| .action (.path (some id!"enumName") [] .nil) <| .text enum_t2 <| .range (some id!"i") id!"v" (.call id!"MakeIterable" (.cons (.path (some 0) [id!"Values", id!"Len"] .nil) .nil)) enum_r0 <| .text enum_t5 <| .nil

theorem enums_parses : parseDefinitions enumsSrc = some [(id!"enums", enumsBody), (id!"enum", enumBody)] := by decide +kernel

/-- /repo/generator/rust/templates/headers.templ -/
def headersSrc : Bytes := str!"{{define \"headers\"}}
// Code generated by polyglot {{ .pluginVersion }}, DO NOT EDIT.
// source: {{ .sourcePath }}
{{end}}"

def headers_t0 : Bytes := str!"\n// Code generated by polyglot "

def headers_t1 : Bytes := str!", DO NOT EDIT.\n// source: "

def headers_t2 : Bytes := str!"\n"

def headersBody : Body :=
  .text headers_t0 <| .action (.path none [id!"pluginVersion"] .nil) <| .text headers_t1 <| .action (.path none [id!"sourcePath"] .nil) <| .text headers_t2 <| .nil

theorem headers_parses : parseDefinitions headersSrc = some [(id!"headers", headersBody)] := by decide +kernel

/-- /repo/generator/rust/templates/imports.templ -/
def importsSrc : Bytes := str!"{{define \"imports\"}}
use std::io::Cursor;
use polyglot_rs::{DecodingError, Encoder, Decoder, Kind};
{{ if .dependencies.Enums -}}
use num_enum::TryFromPrimitive;
use std::convert::TryFrom;
{{ end -}}
{{ if .dependencies.Maps -}}
use std::collections::HashMap;
{{ end -}}
{{end}}"

def imports_t0 : Bytes := str!"\nuse std::io::Cursor;\nuse polyglot_rs::{DecodingError, Encoder, Decoder, Kind};\n"

def imports_t1 : Bytes := str!"use num_enum::TryFromPrimitive;\nuse std::convert::TryFrom;\n"

def imports_t2 : Bytes := str!"use std::collections::HashMap;\n"

def importsBody : Body :=
  .text imports_t0 <| .ite (.path none [id!"dependencies", id!"Enums"] .nil) (.text imports_t1 <| .nil) (.nil) <| .ite (.path none [id!"dependencies", id!"Maps"] .nil) (.text imports_t2 <| .nil) (.nil) <| .nil

theorem imports_parses : parseDefinitions importsSrc = some [(id!"imports", importsBody)] := by decide +kernel

/-- /repo/generator/rust/templates/messages.templ -/
def messagesSrc : Bytes := str!"{{define \"messages\"}}
pub trait Encode {
    fn encode<'a> (&'a self, b: &'a mut Cursor<Vec<u8>>) -> Result<&mut Cursor<Vec<u8>>, Box<dyn std::error::Error>>;
}

pub trait Decode {
    fn decode (b: &mut Cursor<&mut Vec<u8>>) -> Result<Option<Self>, Box<dyn std::error::Error>> where Self: Sized;
}
{{range $i, $e := (MakeIterable .messages.Len) -}}
    {{ $message := $.messages.Get $i }}
    {{range $i, $e := (MakeIterable $message.Enums.Len) -}}
        {{ $enum := ($message.Enums.Get $i) }}
        {{template \"enum\" $enum}}
    {{end}}
    {{template \"structs\" $message}}
{{end}}
{{end}}"

def messages_t0 : Bytes := str!"\npub trait Encode {\n    fn encode<'a> (&'a self, b: &'a mut Cursor<Vec<u8>>) -> Result<&mut Cursor<Vec<u8>>, Box<dyn std::error::Error>>;\n}\n\npub trait Decode {\n    fn decode (b: &mut Cursor<&mut Vec<u8>>) -> Result<Option<Self>, Box<dyn std::error::Error>> where Self: Sized;\n}\n"

def messages_t1 : Bytes := str!"\n    "

def messages_t2 : Bytes := str!"\n        "

def messages_t3 : Bytes := str!"\n    "

def messages_r1 : Body :=
  .assign id!"enum" (.path (some id!"message") [id!"Enums", id!"Get"] (.cons (.path (some id!"i") [] .nil) .nil)) <| .text messages_t2 <| .template id!"enum" (.path (some id!"enum") [] .nil) <| .text messages_t3 <| .nil

def messages_t4 : Bytes := str!"\n    "

def messages_t5 : Bytes := str!"\n"

def messages_r0 : Body :=
  .assign id!"message" (.path (some 0) [id!"messages", id!"Get"] (.cons (.path (some id!"i") [] .nil) .nil)) <| .text messages_t1 <| .range (some id!"i") id!"e" (.call id!"MakeIterable" (.cons (.path (some id!"message") [id!"Enums", id!"Len"] .nil) .nil)) messages_r1 <| .text messages_t4 <| .template id!"structs" (.path (some id!"message") [] .nil) <| .text messages_t5 <| .nil

def messages_t6 : Bytes := str!"\n"

def messagesBody : Body :=
  .text messages_t0 <| .range (some id!"i") id!"e" (.call id!"MakeIterable" (.cons (.path none [id!"messages", id!"Len"] .nil) .nil)) messages_r0 <| .text messages_t6 <| .nil

theorem messages_parses : parseDefinitions messagesSrc = some [(id!"messages", messagesBody)] := by decide +kernel

/-- /repo/generator/rust/templates/structs.templ -/
def structsSrc : Bytes := str!"{{define \"structs\"}}
    {{ range $i, $v := (MakeIterable $.Messages.Len) }}
        {{ $message := $.Messages.Get $i }}
        {{ if not $message.IsMapEntry }}
            {{template \"structs\" $message}}
        {{end}}
    {{end}}
    pub struct {{ CamelCase .FullName }} {
        {{ range $i, $v := (MakeIterable $.Fields.Len) -}}
            {{ $field := $.Fields.Get $i -}}
            {{ $value := FindValue $field -}}

            {{  $privacy := GeneratedFieldPrivacy -}}
            {{ if eq $privacy \"private\" -}}
            {{ SnakeCaseName $field.Name }}: {{ $value }},
            {{ else if eq $privacy \"public\" -}}
            pub {{ SnakeCaseName $field.Name }}: {{ $value }},
            {{ else -}}
            pub(crate) {{ SnakeCaseName $field.Name }}: {{ $value }},
            {{ end -}}
        {{end -}}
    }

    {{template \"encode\" .}}
    {{template \"decode\" .}}
{{end}}
"

def structs_t0 : Bytes := str!"\n    "

def structs_t1 : Bytes := str!"\n        "

def structs_t2 : Bytes := str!"\n        "

def structs_t3 : Bytes := str!"\n            "

def structs_t4 : Bytes := str!"\n        "

def structs_t5 : Bytes := str!"\n    "

def structs_r0 : Body :=
  .text structs_t1 <| .assign id!"message" (.path (some 0) [id!"Messages", id!"Get"] (.cons (.path (some id!"i") [] .nil) .nil)) <| .text structs_t2 <| .ite (.call id!"not" (.cons (.path (some id!"message") [id!"IsMapEntry"] .nil) .nil)) (.text structs_t3 <| .template id!"structs" (.path (some id!"message") [] .nil) <| .text structs_t4 <| .nil) (.nil) <| .text structs_t5 <| .nil

def structs_t6 : Bytes := str!"\n    pub struct "

def structs_t7 : Bytes := str!" {\n        "

def structs_t8 : Bytes := str!": "

def structs_t9 : Bytes := str!",\n            "

def structs_t10 : Bytes := str!"pub "

def structs_t11 : Bytes := str!": "

def structs_t12 : Bytes := str!",\n            "

def structs_t13 : Bytes := str!"pub(crate) "

def structs_t14 : Bytes := str!": "

def structs_t15 : Bytes := str!",\n            "

def structs_r1 : Body :=
  .assign id!"field" (.path (some 0) [id!"Fields", id!"Get"] (.cons (.path (some id!"i") [] .nil) .nil)) <| .assign id!"value" (.call id!"FindValue" (.cons (.path (some id!"field") [] .nil) .nil)) <| .assign id!"privacy" (.call id!"GeneratedFieldPrivacy" .nil) <| .ite (.call id!"eq" (.cons (.path (some id!"privacy") [] .nil) (.cons (.str str!"private") .nil))) (.action (.call id!"SnakeCaseName" (.cons (.path (some id!"field") [id!"Name"] .nil) .nil)) <| .text structs_t8 <| .action (.path (some id!"value") [] .nil) <| .text structs_t9 <| .nil) (.ite (.call id!"eq" (.cons (.path (some id!"privacy") [] .nil) (.cons (.str str!"public") .nil))) (.text structs_t10 <| .action (.call id!"SnakeCaseName" (.cons (.path (some id!"field") [id!"Name"] .nil) .nil)) <| .text structs_t11 <| .action (.path (some id!"value") [] .nil) <| .text structs_t12 <| .nil) (.text structs_t13 <| .action (.call id!"SnakeCaseName" (.cons (.path (some id!"field") [id!"Name"] .nil) .nil)) <| .text structs_t14 <| .action (.path (some id!"value") [] .nil) <| .text structs_t15 <| .nil) <| .nil) <| .nil

def structs_t16 : Bytes := str!"}\n\n    "

def structs_t17 : Bytes := str!"\n    "

def structs_t18 : Bytes := str!"\n"

def structsBody : Body :=
  .text structs_t0 <| .range (some id!"i") id!"v" (.call id!"MakeIterable" (.cons (.path (some 0) [id!"Messages", id!"Len"] .nil) .nil)) structs_r0 <| .text structs_t6 <| .action (.call id!"CamelCase" (.cons (.path none [id!"FullName"] .nil) .nil)) <| .text structs_t7 <| .range (some id!"i") id!"v" (.call id!"MakeIterable" (.cons (.path (some 0) [id!"Fields", id!"Len"] .nil) .nil)) structs_r1 <| .text structs_t16 <| .template id!"encode" (.path none [] .nil) <| .text structs_t17 <| .template id!"decode" (.path none [] .nil) <| .text structs_t18 <| .nil

theorem structs_parses : parseDefinitions structsSrc = some [(id!"structs", structsBody)] := by decide +kernel

/-- All named templates (generator.go 84 `ParseFS`). -/
def defs : List (Nat × Body) :=
  [(id!"decode", decodeBody),
   (id!"decodeMap", decodeMapBody),
   (id!"encode", encodeBody),
   (id!"encodeSlices", encodeSlicesBody),
   (id!"encodeMessages", encodeMessagesBody),
   (id!"enums", enumsBody),
   (id!"enum", enumBody),
   (id!"headers", headersBody),
   (id!"imports", importsBody),
   (id!"messages", messagesBody),
   (id!"structs", structsBody)]

/-- The template files with definitions (templates.go embeds `*.templ`), in the order of their names. -/
def sources : List Bytes := [decodeSrc, decodeMapSrc, encodeSrc, enumsSrc, headersSrc, importsSrc, messagesSrc, structsSrc]

/-- generator.go 84 `ParseFS`: what the files define. -/
def parsed : Option (List (Nat × Body)) := (sources.mapM parseDefinitions).map List.flatten

theorem parsed_eq : parsed = some defs := by
  simp only [parsed, sources, List.mapM_cons, List.mapM_nil, decode_parses, decodeMap_parses, encode_parses, enums_parses, headers_parses,
    imports_parses, messages_parses, structs_parses]
  rfl

end RustTempl
