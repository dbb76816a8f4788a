"""Report anchors in properties.jsonl whose file or symbols do not occur in /repo."""
import json, os, re
for l in open('/verif/properties.jsonl'):
    d = json.loads(l)
    for a in d['anchors']:
        f, _, sym = a.partition(': ')
        t = open('/repo/' + f).read() if os.path.isfile('/repo/' + f) else None
        if t is None:
            print(d['id'], a, 'nofile'); continue
        for part in re.split(r'[.,\s]+', sym):
            if part and part not in t:
                print(d['id'], a, part)
