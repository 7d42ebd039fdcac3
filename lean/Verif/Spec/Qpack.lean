import Verif.Spec.Huffman
/-!
# Specification of header fields (RFC 9204)
-/

namespace Picoquic.Spec

/-- The static table, RFC 9204, appendix A: names and values. -/
def qpStatic : List (List UInt8 × List UInt8) :=
 [  /- 0 ":authority": "" -/ ([58, 97, 117, 116, 104, 111, 114, 105, 116, 121], []),
   /- 1 ":path": "/" -/ ([58, 112, 97, 116, 104], [47]),
   /- 2 "age": "0" -/ ([97, 103, 101], [48]),
   /- 3 "content-disposition": "" -/ ([99, 111, 110, 116, 101, 110, 116, 45, 100, 105, 115, 112, 111, 115, 105, 116, 105, 111, 110], []),
   /- 4 "content-length": "0" -/ ([99, 111, 110, 116, 101, 110, 116, 45, 108, 101, 110, 103, 116, 104], [48]),
   /- 5 "cookie": "" -/ ([99, 111, 111, 107, 105, 101], []),
   /- 6 "date": "" -/ ([100, 97, 116, 101], []),
   /- 7 "etag": "" -/ ([101, 116, 97, 103], []),
   /- 8 "if-modified-since": "" -/ ([105, 102, 45, 109, 111, 100, 105, 102, 105, 101, 100, 45, 115, 105, 110, 99, 101], []),
   /- 9 "if-none-match": "" -/ ([105, 102, 45, 110, 111, 110, 101, 45, 109, 97, 116, 99, 104], []),
   /- 10 "last-modified": "" -/ ([108, 97, 115, 116, 45, 109, 111, 100, 105, 102, 105, 101, 100], []),
   /- 11 "link": "" -/ ([108, 105, 110, 107], []),
   /- 12 "location": "" -/ ([108, 111, 99, 97, 116, 105, 111, 110], []),
   /- 13 "referer": "" -/ ([114, 101, 102, 101, 114, 101, 114], []),
   /- 14 "set-cookie": "" -/ ([115, 101, 116, 45, 99, 111, 111, 107, 105, 101], []),
   /- 15 ":method": "CONNECT" -/ ([58, 109, 101, 116, 104, 111, 100], [67, 79, 78, 78, 69, 67, 84]),
   /- 16 ":method": "DELETE" -/ ([58, 109, 101, 116, 104, 111, 100], [68, 69, 76, 69, 84, 69]),
   /- 17 ":method": "GET" -/ ([58, 109, 101, 116, 104, 111, 100], [71, 69, 84]),
   /- 18 ":method": "HEAD" -/ ([58, 109, 101, 116, 104, 111, 100], [72, 69, 65, 68]),
   /- 19 ":method": "OPTIONS" -/ ([58, 109, 101, 116, 104, 111, 100], [79, 80, 84, 73, 79, 78, 83]),
   /- 20 ":method": "POST" -/ ([58, 109, 101, 116, 104, 111, 100], [80, 79, 83, 84]),
   /- 21 ":method": "PUT" -/ ([58, 109, 101, 116, 104, 111, 100], [80, 85, 84]),
   /- 22 ":scheme": "http" -/ ([58, 115, 99, 104, 101, 109, 101], [104, 116, 116, 112]),
   /- 23 ":scheme": "https" -/ ([58, 115, 99, 104, 101, 109, 101], [104, 116, 116, 112, 115]),
   /- 24 ":status": "103" -/ ([58, 115, 116, 97, 116, 117, 115], [49, 48, 51]),
   /- 25 ":status": "200" -/ ([58, 115, 116, 97, 116, 117, 115], [50, 48, 48]),
   /- 26 ":status": "304" -/ ([58, 115, 116, 97, 116, 117, 115], [51, 48, 52]),
   /- 27 ":status": "404" -/ ([58, 115, 116, 97, 116, 117, 115], [52, 48, 52]),
   /- 28 ":status": "503" -/ ([58, 115, 116, 97, 116, 117, 115], [53, 48, 51]),
   /- 29 "accept": "*/*" -/ ([97, 99, 99, 101, 112, 116], [42, 47, 42]),
   /- 30 "accept": "application/dns-message" -/ ([97, 99, 99, 101, 112, 116], [97, 112, 112, 108, 105, 99, 97, 116, 105, 111, 110, 47, 100, 110, 115, 45, 109, 101, 115, 115, 97, 103, 101]),
   /- 31 "accept-encoding": "gzip, deflate, br" -/ ([97, 99, 99, 101, 112, 116, 45, 101, 110, 99, 111, 100, 105, 110, 103], [103, 122, 105, 112, 44, 32, 100, 101, 102, 108, 97, 116, 101, 44, 32, 98, 114]),
   /- 32 "accept-ranges": "bytes" -/ ([97, 99, 99, 101, 112, 116, 45, 114, 97, 110, 103, 101, 115], [98, 121, 116, 101, 115]),
   /- 33 "access-control-allow-headers": "cache-control" -/ ([97, 99, 99, 101, 115, 115, 45, 99, 111, 110, 116, 114, 111, 108, 45, 97, 108, 108, 111, 119, 45, 104, 101, 97, 100, 101, 114, 115], [99, 97, 99, 104, 101, 45, 99, 111, 110, 116, 114, 111, 108]),
   /- 34 "access-control-allow-headers": "content-type" -/ ([97, 99, 99, 101, 115, 115, 45, 99, 111, 110, 116, 114, 111, 108, 45, 97, 108, 108, 111, 119, 45, 104, 101, 97, 100, 101, 114, 115], [99, 111, 110, 116, 101, 110, 116, 45, 116, 121, 112, 101]),
   /- 35 "access-control-allow-origin": "*" -/ ([97, 99, 99, 101, 115, 115, 45, 99, 111, 110, 116, 114, 111, 108, 45, 97, 108, 108, 111, 119, 45, 111, 114, 105, 103, 105, 110], [42]),
   /- 36 "cache-control": "max-age=0" -/ ([99, 97, 99, 104, 101, 45, 99, 111, 110, 116, 114, 111, 108], [109, 97, 120, 45, 97, 103, 101, 61, 48]),
   /- 37 "cache-control": "max-age=2592000" -/ ([99, 97, 99, 104, 101, 45, 99, 111, 110, 116, 114, 111, 108], [109, 97, 120, 45, 97, 103, 101, 61, 50, 53, 57, 50, 48, 48, 48]),
   /- 38 "cache-control": "max-age=604800" -/ ([99, 97, 99, 104, 101, 45, 99, 111, 110, 116, 114, 111, 108], [109, 97, 120, 45, 97, 103, 101, 61, 54, 48, 52, 56, 48, 48]),
   /- 39 "cache-control": "no-cache" -/ ([99, 97, 99, 104, 101, 45, 99, 111, 110, 116, 114, 111, 108], [110, 111, 45, 99, 97, 99, 104, 101]),
   /- 40 "cache-control": "no-store" -/ ([99, 97, 99, 104, 101, 45, 99, 111, 110, 116, 114, 111, 108], [110, 111, 45, 115, 116, 111, 114, 101]),
   /- 41 "cache-control": "public, max-age=31536000" -/ ([99, 97, 99, 104, 101, 45, 99, 111, 110, 116, 114, 111, 108], [112, 117, 98, 108, 105, 99, 44, 32, 109, 97, 120, 45, 97, 103, 101, 61, 51, 49, 53, 51, 54, 48, 48, 48]),
   /- 42 "content-encoding": "br" -/ ([99, 111, 110, 116, 101, 110, 116, 45, 101, 110, 99, 111, 100, 105, 110, 103], [98, 114]),
   /- 43 "content-encoding": "gzip" -/ ([99, 111, 110, 116, 101, 110, 116, 45, 101, 110, 99, 111, 100, 105, 110, 103], [103, 122, 105, 112]),
   /- 44 "content-type": "application/dns-message" -/ ([99, 111, 110, 116, 101, 110, 116, 45, 116, 121, 112, 101], [97, 112, 112, 108, 105, 99, 97, 116, 105, 111, 110, 47, 100, 110, 115, 45, 109, 101, 115, 115, 97, 103, 101]),
   /- 45 "content-type": "application/javascript" -/ ([99, 111, 110, 116, 101, 110, 116, 45, 116, 121, 112, 101], [97, 112, 112, 108, 105, 99, 97, 116, 105, 111, 110, 47, 106, 97, 118, 97, 115, 99, 114, 105, 112, 116]),
   /- 46 "content-type": "application/json" -/ ([99, 111, 110, 116, 101, 110, 116, 45, 116, 121, 112, 101], [97, 112, 112, 108, 105, 99, 97, 116, 105, 111, 110, 47, 106, 115, 111, 110]),
   /- 47 "content-type": "application/x-www-form-urlencoded" -/ ([99, 111, 110, 116, 101, 110, 116, 45, 116, 121, 112, 101], [97, 112, 112, 108, 105, 99, 97, 116, 105, 111, 110, 47, 120, 45, 119, 119, 119, 45, 102, 111, 114, 109, 45, 117, 114, 108, 101, 110, 99, 111, 100, 101, 100]),
   /- 48 "content-type": "image/gif" -/ ([99, 111, 110, 116, 101, 110, 116, 45, 116, 121, 112, 101], [105, 109, 97, 103, 101, 47, 103, 105, 102]),
   /- 49 "content-type": "image/jpeg" -/ ([99, 111, 110, 116, 101, 110, 116, 45, 116, 121, 112, 101], [105, 109, 97, 103, 101, 47, 106, 112, 101, 103]),
   /- 50 "content-type": "image/png" -/ ([99, 111, 110, 116, 101, 110, 116, 45, 116, 121, 112, 101], [105, 109, 97, 103, 101, 47, 112, 110, 103]),
   /- 51 "content-type": "text/css" -/ ([99, 111, 110, 116, 101, 110, 116, 45, 116, 121, 112, 101], [116, 101, 120, 116, 47, 99, 115, 115]),
   /- 52 "content-type": "text/html; charset=utf-8" -/ ([99, 111, 110, 116, 101, 110, 116, 45, 116, 121, 112, 101], [116, 101, 120, 116, 47, 104, 116, 109, 108, 59, 32, 99, 104, 97, 114, 115, 101, 116, 61, 117, 116, 102, 45, 56]),
   /- 53 "content-type": "text/plain" -/ ([99, 111, 110, 116, 101, 110, 116, 45, 116, 121, 112, 101], [116, 101, 120, 116, 47, 112, 108, 97, 105, 110]),
   /- 54 "content-type": "text/plain;charset=utf-8" -/ ([99, 111, 110, 116, 101, 110, 116, 45, 116, 121, 112, 101], [116, 101, 120, 116, 47, 112, 108, 97, 105, 110, 59, 99, 104, 97, 114, 115, 101, 116, 61, 117, 116, 102, 45, 56]),
   /- 55 "range": "bytes=0-" -/ ([114, 97, 110, 103, 101], [98, 121, 116, 101, 115, 61, 48, 45]),
   /- 56 "strict-transport-security": "max-age=31536000" -/ ([115, 116, 114, 105, 99, 116, 45, 116, 114, 97, 110, 115, 112, 111, 114, 116, 45, 115, 101, 99, 117, 114, 105, 116, 121], [109, 97, 120, 45, 97, 103, 101, 61, 51, 49, 53, 51, 54, 48, 48, 48]),
   /- 57 "strict-transport-security": "max-age=31536000; includesubdomains" -/ ([115, 116, 114, 105, 99, 116, 45, 116, 114, 97, 110, 115, 112, 111, 114, 116, 45, 115, 101, 99, 117, 114, 105, 116, 121], [109, 97, 120, 45, 97, 103, 101, 61, 51, 49, 53, 51, 54, 48, 48, 48, 59, 32, 105, 110, 99, 108, 117, 100, 101, 115, 117, 98, 100, 111, 109, 97, 105, 110, 115]),
   /- 58 "strict-transport-security": "max-age=31536000; includesubdomains; preload" -/ ([115, 116, 114, 105, 99, 116, 45, 116, 114, 97, 110, 115, 112, 111, 114, 116, 45, 115, 101, 99, 117, 114, 105, 116, 121], [109, 97, 120, 45, 97, 103, 101, 61, 51, 49, 53, 51, 54, 48, 48, 48, 59, 32, 105, 110, 99, 108, 117, 100, 101, 115, 117, 98, 100, 111, 109, 97, 105, 110, 115, 59, 32, 112, 114, 101, 108, 111, 97, 100]),
   /- 59 "vary": "accept-encoding" -/ ([118, 97, 114, 121], [97, 99, 99, 101, 112, 116, 45, 101, 110, 99, 111, 100, 105, 110, 103]),
   /- 60 "vary": "origin" -/ ([118, 97, 114, 121], [111, 114, 105, 103, 105, 110]),
   /- 61 "x-content-type-options": "nosniff" -/ ([120, 45, 99, 111, 110, 116, 101, 110, 116, 45, 116, 121, 112, 101, 45, 111, 112, 116, 105, 111, 110, 115], [110, 111, 115, 110, 105, 102, 102]),
   /- 62 "x-xss-protection": "1; mode=block" -/ ([120, 45, 120, 115, 115, 45, 112, 114, 111, 116, 101, 99, 116, 105, 111, 110], [49, 59, 32, 109, 111, 100, 101, 61, 98, 108, 111, 99, 107]),
   /- 63 ":status": "100" -/ ([58, 115, 116, 97, 116, 117, 115], [49, 48, 48]),
   /- 64 ":status": "204" -/ ([58, 115, 116, 97, 116, 117, 115], [50, 48, 52]),
   /- 65 ":status": "206" -/ ([58, 115, 116, 97, 116, 117, 115], [50, 48, 54]),
   /- 66 ":status": "302" -/ ([58, 115, 116, 97, 116, 117, 115], [51, 48, 50]),
   /- 67 ":status": "400" -/ ([58, 115, 116, 97, 116, 117, 115], [52, 48, 48]),
   /- 68 ":status": "403" -/ ([58, 115, 116, 97, 116, 117, 115], [52, 48, 51]),
   /- 69 ":status": "421" -/ ([58, 115, 116, 97, 116, 117, 115], [52, 50, 49]),
   /- 70 ":status": "425" -/ ([58, 115, 116, 97, 116, 117, 115], [52, 50, 53]),
   /- 71 ":status": "500" -/ ([58, 115, 116, 97, 116, 117, 115], [53, 48, 48]),
   /- 72 "accept-language": "" -/ ([97, 99, 99, 101, 112, 116, 45, 108, 97, 110, 103, 117, 97, 103, 101], []),
   /- 73 "access-control-allow-credentials": "FALSE" -/ ([97, 99, 99, 101, 115, 115, 45, 99, 111, 110, 116, 114, 111, 108, 45, 97, 108, 108, 111, 119, 45, 99, 114, 101, 100, 101, 110, 116, 105, 97, 108, 115], [70, 65, 76, 83, 69]),
   /- 74 "access-control-allow-credentials": "TRUE" -/ ([97, 99, 99, 101, 115, 115, 45, 99, 111, 110, 116, 114, 111, 108, 45, 97, 108, 108, 111, 119, 45, 99, 114, 101, 100, 101, 110, 116, 105, 97, 108, 115], [84, 82, 85, 69]),
   /- 75 "access-control-allow-headers": "*" -/ ([97, 99, 99, 101, 115, 115, 45, 99, 111, 110, 116, 114, 111, 108, 45, 97, 108, 108, 111, 119, 45, 104, 101, 97, 100, 101, 114, 115], [42]),
   /- 76 "access-control-allow-methods": "get" -/ ([97, 99, 99, 101, 115, 115, 45, 99, 111, 110, 116, 114, 111, 108, 45, 97, 108, 108, 111, 119, 45, 109, 101, 116, 104, 111, 100, 115], [103, 101, 116]),
   /- 77 "access-control-allow-methods": "get, post, options" -/ ([97, 99, 99, 101, 115, 115, 45, 99, 111, 110, 116, 114, 111, 108, 45, 97, 108, 108, 111, 119, 45, 109, 101, 116, 104, 111, 100, 115], [103, 101, 116, 44, 32, 112, 111, 115, 116, 44, 32, 111, 112, 116, 105, 111, 110, 115]),
   /- 78 "access-control-allow-methods": "options" -/ ([97, 99, 99, 101, 115, 115, 45, 99, 111, 110, 116, 114, 111, 108, 45, 97, 108, 108, 111, 119, 45, 109, 101, 116, 104, 111, 100, 115], [111, 112, 116, 105, 111, 110, 115]),
   /- 79 "access-control-expose-headers": "content-length" -/ ([97, 99, 99, 101, 115, 115, 45, 99, 111, 110, 116, 114, 111, 108, 45, 101, 120, 112, 111, 115, 101, 45, 104, 101, 97, 100, 101, 114, 115], [99, 111, 110, 116, 101, 110, 116, 45, 108, 101, 110, 103, 116, 104]),
   /- 80 "access-control-request-headers": "content-type" -/ ([97, 99, 99, 101, 115, 115, 45, 99, 111, 110, 116, 114, 111, 108, 45, 114, 101, 113, 117, 101, 115, 116, 45, 104, 101, 97, 100, 101, 114, 115], [99, 111, 110, 116, 101, 110, 116, 45, 116, 121, 112, 101]),
   /- 81 "access-control-request-method": "get" -/ ([97, 99, 99, 101, 115, 115, 45, 99, 111, 110, 116, 114, 111, 108, 45, 114, 101, 113, 117, 101, 115, 116, 45, 109, 101, 116, 104, 111, 100], [103, 101, 116]),
   /- 82 "access-control-request-method": "post" -/ ([97, 99, 99, 101, 115, 115, 45, 99, 111, 110, 116, 114, 111, 108, 45, 114, 101, 113, 117, 101, 115, 116, 45, 109, 101, 116, 104, 111, 100], [112, 111, 115, 116]),
   /- 83 "alt-svc": "clear" -/ ([97, 108, 116, 45, 115, 118, 99], [99, 108, 101, 97, 114]),
   /- 84 "authorization": "" -/ ([97, 117, 116, 104, 111, 114, 105, 122, 97, 116, 105, 111, 110], []),
   /- 85 "content-security-policy": "script-src 'none'; object-src 'none'; base-uri 'none'" -/ ([99, 111, 110, 116, 101, 110, 116, 45, 115, 101, 99, 117, 114, 105, 116, 121, 45, 112, 111, 108, 105, 99, 121], [115, 99, 114, 105, 112, 116, 45, 115, 114, 99, 32, 39, 110, 111, 110, 101, 39, 59, 32, 111, 98, 106, 101, 99, 116, 45, 115, 114, 99, 32, 39, 110, 111, 110, 101, 39, 59, 32, 98, 97, 115, 101, 45, 117, 114, 105, 32, 39, 110, 111, 110, 101, 39]),
   /- 86 "early-data": "1" -/ ([101, 97, 114, 108, 121, 45, 100, 97, 116, 97], [49]),
   /- 87 "expect-ct": "" -/ ([101, 120, 112, 101, 99, 116, 45, 99, 116], []),
   /- 88 "forwarded": "" -/ ([102, 111, 114, 119, 97, 114, 100, 101, 100], []),
   /- 89 "if-range": "" -/ ([105, 102, 45, 114, 97, 110, 103, 101], []),
   /- 90 "origin": "" -/ ([111, 114, 105, 103, 105, 110], []),
   /- 91 "purpose": "prefetch" -/ ([112, 117, 114, 112, 111, 115, 101], [112, 114, 101, 102, 101, 116, 99, 104]),
   /- 92 "server": "" -/ ([115, 101, 114, 118, 101, 114], []),
   /- 93 "timing-allow-origin": "*" -/ ([116, 105, 109, 105, 110, 103, 45, 97, 108, 108, 111, 119, 45, 111, 114, 105, 103, 105, 110], [42]),
   /- 94 "upgrade-insecure-requests": "1" -/ ([117, 112, 103, 114, 97, 100, 101, 45, 105, 110, 115, 101, 99, 117, 114, 101, 45, 114, 101, 113, 117, 101, 115, 116, 115], [49]),
   /- 95 "user-agent": "" -/ ([117, 115, 101, 114, 45, 97, 103, 101, 110, 116], []),
   /- 96 "x-forwarded-for": "" -/ ([120, 45, 102, 111, 114, 119, 97, 114, 100, 101, 100, 45, 102, 111, 114], []),
   /- 97 "x-frame-options": "deny" -/ ([120, 45, 102, 114, 97, 109, 101, 45, 111, 112, 116, 105, 111, 110, 115], [100, 101, 110, 121]),
   /- 98 "x-frame-options": "sameorigin" -/ ([120, 45, 102, 114, 97, 109, 101, 45, 111, 112, 116, 105, 111, 110, 115], [115, 97, 109, 101, 111, 114, 105, 103, 105, 110])]

/-- The bytes of a number behind those of the prefix, RFC 7541, section 5.1. -/
def qpTail (v : Nat) : List UInt8 :=
  if v < 128 then [UInt8.ofNat v] else UInt8.ofNat (128 + v % 128) :: qpTail (v / 128)

/-- A number with a prefix of `n` bits; `high` is the value of the other bits of the first byte. -/
def qpInt (high n v : Nat) : List UInt8 :=
  if v < 2 ^ n - 1 then [UInt8.ofNat (high + v)] else UInt8.ofNat (high + (2 ^ n - 1)) :: qpTail (v - (2 ^ n - 1))

/-- A string, with or without a Huffman code. The bit in front of the length says which. -/
def qpStr (high n : Nat) (huffman : Bool) (s : List UInt8) : List UInt8 :=
  if huffman then qpInt (high + 2 ^ n) n (hfEncode s).length ++ hfEncode s else qpInt high n s.length ++ s

/-- The ways to send a header field without the dynamic table, RFC 9204, sections 4.5.2, 4.5.4 and 4.5.6. `never` is the bit that asks intermediaries not to index the field. -/
inductive QpLine
  | indexed (i : Nat)
  | nameRef (never : Bool) (i : Nat) (huffman : Bool) (value : List UInt8)
  | literal (never : Bool) (huffName : Bool) (name : List UInt8) (huffman : Bool) (value : List UInt8)
deriving DecidableEq, Repr

/-- The bytes of a line. -/
def qpLineBytes : QpLine → List UInt8
  | .indexed i => qpInt 0xC0 6 i
  | .nameRef never i huffman value => qpInt (0x50 + 0x20 * never.toNat) 4 i ++ qpStr 0 7 huffman value
  | .literal never huffName name huffman value => qpStr (0x20 + 0x10 * never.toNat) 3 huffName name ++ qpStr 0 7 huffman value

/-- The bytes of a header frame: the number of entries of the dynamic table that are needed and the base are zero. -/
def qpFrame (lines : List QpLine) : List UInt8 := 0 :: 0 :: lines.flatMap qpLineBytes

/-- The name and the value of a line. -/
def qpField : QpLine → Option (List UInt8 × List UInt8)
  | .indexed i => qpStatic[i]?
  | .nameRef _ i _ value => (qpStatic[i]?).map (fun e => (e.1, value))
  | .literal _ _ name _ value => some (name, value)

/-- A line that can be sent to this implementation: the entry of the static table exists, it is not the value for ranges, and strings with a Huffman code have at most 256 bytes. -/
def QpLineOk : QpLine → Prop
  | .indexed i => i < 99 ∧ i ≠ 55
  | .nameRef _ i huffman value => i < 99 ∧ value.length < 2 ^ 58 ∧ (huffman = true → value.length ≤ 256)
  | .literal _ huffName name huffman value => name.length < 2 ^ 58 ∧ value.length < 2 ^ 58 ∧ (huffName = true → name.length ≤ 256) ∧ (huffman = true → value.length ≤ 256)

/-- The values of the fields with a name. -/
def qpValues (name : List UInt8) (fields : List (List UInt8 × List UInt8)) : List (List UInt8) :=
  (fields.filter (fun f => f.1 == name)).map (·.2)

/-- The names of the fields that are reported to the application. -/
def qpNameMethod : List UInt8 := /- ":method" -/ [58, 109, 101, 116, 104, 111, 100]
def qpNamePath : List UInt8 := /- ":path" -/ [58, 112, 97, 116, 104]
def qpNameStatus : List UInt8 := /- ":status" -/ [58, 115, 116, 97, 116, 117, 115]
def qpNameContentType : List UInt8 := /- "content-type" -/ [99, 111, 110, 116, 101, 110, 116, 45, 116, 121, 112, 101]
def qpNameRange : List UInt8 := /- "range" -/ [114, 97, 110, 103, 101]
def qpNameProtocol : List UInt8 := /- ":protocol" -/ [58, 112, 114, 111, 116, 111, 99, 111, 108]

/-- The methods and their numbers in h3zero.h; 0 is no method, 1 a method that is not supported. -/
def qpMethods : List (List UInt8 × Nat) :=
 [  /- "CONNECT" -/ ([67, 79, 78, 78, 69, 67, 84], 2),
   /- "DELETE" -/ ([68, 69, 76, 69, 84, 69], 3),
   /- "GET" -/ ([71, 69, 84], 4),
   /- "HEAD" -/ ([72, 69, 65, 68], 5),
   /- "OPTIONS" -/ ([79, 80, 84, 73, 79, 78, 83], 6),
   /- "POST" -/ ([80, 79, 83, 84], 7),
   /- "PUT" -/ ([80, 85, 84], 8)]

/-- The types of contents and their numbers in h3zero.h. -/
def qpTypes : List (List UInt8 × Nat) :=
 [  /- "application/dns-message" -/ ([97, 112, 112, 108, 105, 99, 97, 116, 105, 111, 110, 47, 100, 110, 115, 45, 109, 101, 115, 115, 97, 103, 101], 7),
   /- "application/javascript" -/ ([97, 112, 112, 108, 105, 99, 97, 116, 105, 111, 110, 47, 106, 97, 118, 97, 115, 99, 114, 105, 112, 116], 8),
   /- "application/json" -/ ([97, 112, 112, 108, 105, 99, 97, 116, 105, 111, 110, 47, 106, 115, 111, 110], 9),
   /- "application/x-www-form-urlencoded" -/ ([97, 112, 112, 108, 105, 99, 97, 116, 105, 111, 110, 47, 120, 45, 119, 119, 119, 45, 102, 111, 114, 109, 45, 117, 114, 108, 101, 110, 99, 111, 100, 101, 100], 10),
   /- "image/gif" -/ ([105, 109, 97, 103, 101, 47, 103, 105, 102], 4),
   /- "image/jpeg" -/ ([105, 109, 97, 103, 101, 47, 106, 112, 101, 103], 5),
   /- "image/png" -/ ([105, 109, 97, 103, 101, 47, 112, 110, 103], 6),
   /- "text/css" -/ ([116, 101, 120, 116, 47, 99, 115, 115], 11),
   /- "text/html; charset=utf-8" -/ ([116, 101, 120, 116, 47, 104, 116, 109, 108, 59, 32, 99, 104, 97, 114, 115, 101, 116, 61, 117, 116, 102, 45, 56], 2),
   /- "text/plain" -/ ([116, 101, 120, 116, 47, 112, 108, 97, 105, 110], 3),
   /- "text/plain;charset=utf-8" -/ ([116, 101, 120, 116, 47, 112, 108, 97, 105, 110, 59, 99, 104, 97, 114, 115, 101, 116, 61, 117, 116, 102, 45, 56], 3)]

/-- The number of a name in a table. -/
def qpNumber (table : List (List UInt8 × Nat)) (name : List UInt8) : Nat :=
  match table.lookup name with
  | some n => n
  | none => 1

/-- The number that decimal digits stand for, and -1 for a text that is not made of digits. -/
def qpDecimal (v : List UInt8) : Int :=
  if v.all (fun b => 48 ≤ b.toNat && b.toNat ≤ 57) then ((v.foldl (fun n b => 10 * n + (b.toNat - 48)) 0 : Nat) : Int) else -1

end Picoquic.Spec
