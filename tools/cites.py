#!/usr/bin/env python3
"""Check the source citations of the model: the cited file and lines exist, and if the comment names a
function or type in backquotes right after the citation, it is declared within the cited lines."""
import re, glob, sys
bad = 0
for f in sorted(glob.glob('/verif/lean/Verif/Model/*.lean')):
    s = open(f).read()
    for m in re.finditer(r'/--(.*?)-/\s*\n', s, re.S):
        doc = m.group(1)
        for c in re.finditer(r'((?:src|programs)[\w/\.]*\.rs):(\d+)(?:-(\d+))?(?:,? (?:of )?`([^`]*)`)?', doc):
            path, a, b, name = c.group(1), int(c.group(2)), int(c.group(3) or c.group(2)), c.group(4)
            try:
                lines = open('/repo/' + path).read().split('\n')
            except FileNotFoundError:
                print(f, 'no file', path); bad += 1; continue
            if b > len(lines) or a > b:
                print(f, 'range', path, a, b); bad += 1; continue
            body = '\n'.join(lines[a-1:b])
            if name:
                ident = re.split(r'::', name)[-1]
                ident = re.sub(r'\W.*', '', ident)
                if ident and not re.search(r'(fn|struct|enum|type|trait|static|const|named!\(pub|named!\(|macro_rules!)\s*(pub )?\(?%s\b|named!\([^\n]*%s|%s' % (ident, ident, ident), body):
                    print(f.split('/')[-1], path, a, b, name); bad += 1
                elif ident and not re.search(r'(fn|struct|enum|type|trait|static|const|impl)\b[^\n]*\b%s\b|named!|%s' % (ident, ident), body.split('\n')[0] + '\n' + (body.split('\n')[1] if b > a else '') + '\n' + '\n'.join(body.split('\n')[:4])):
                    print('  late:', f.split('/')[-1], path, a, b, name)
print(bad, 'bad')
